import Verif.Proof.ListCont
import Mathlib.Analysis.SpecialFunctions.Pow.Continuity
import Verif.Props.Transfer

/-!
C198: transfer functions depend continuously on the profile and on frequency, and thin layers have little effect.
-/

set_option linter.unusedSectionVars false
set_option linter.unusedVariables false

open Filter Topology Complex

namespace Verif

open Spec (DampedLay)

variable {ι : Type} {f : Filter ι}

/-- Profiles `ls i` whose thicknesses, velocities, dampings and densities approach those of `l0` (this includes having as many layers). -/
structure Spec.ProfileTends (f : Filter ι) (ls : ι → List Lay) (l0 : List Lay) : Prop where
  h : Tendsto (fun i => (ls i).map Lay.h) f (𝓝 (l0.map Lay.h))
  vs : Tendsto (fun i => (ls i).map Lay.vs) f (𝓝 (l0.map Lay.vs))
  xi : Tendsto (fun i => (ls i).map Lay.xi) f (𝓝 (l0.map Lay.xi))
  rho : Tendsto (fun i => (ls i).map Lay.rho) f (𝓝 (l0.map Lay.rho))

open Spec (ProfileTends)

/-- The same for one layer. -/
structure LayTends (f : Filter ι) (lay : ι → Lay) (l : Lay) : Prop where
  h : Tendsto (fun i => (lay i).h) f (𝓝 l.h)
  vs : Tendsto (fun i => (lay i).vs) f (𝓝 l.vs)
  xi : Tendsto (fun i => (lay i).xi) f (𝓝 l.xi)
  rho : Tendsto (fun i => (lay i).rho) f (𝓝 l.rho)

/-- A layer with velocity and density. -/
def GoodLay (l : Lay) : Prop := 0 < l.vs ∧ 0 < l.rho

theorem tendsto_ofReal {g : ι → ℝ} {x : ℝ} (h : Tendsto g f (𝓝 x)) : Tendsto (fun i => (g i : ℂ)) f (𝓝 (x : ℂ)) :=
  (Complex.continuous_ofReal.tendsto x).comp h

theorem xi_slit (x : ℝ) : (1 + 2 * I * x : ℂ) ∈ slitPlane := by
  left
  simp

theorem vsStar_good {l : Lay} (h : GoodLay l) : vsStar l ≠ 0 := by
  unfold vsStar csqrt
  refine mul_ne_zero (by exact_mod_cast h.1.ne') ?_
  rw [Ne, Complex.cpow_eq_zero_iff]
  exact fun h => slitPlane_ne_zero (xi_slit l.xi) h.1

theorem vsStar_tendsto {lay : ι → Lay} {l : Lay} (h : LayTends f lay l) : Tendsto (fun i => vsStar (lay i)) f (𝓝 (vsStar l)) := by
  unfold vsStar csqrt
  exact (tendsto_ofReal h.vs).mul (Tendsto.cpow (tendsto_const_nhds.add (tendsto_const_nhds.mul (tendsto_ofReal h.xi))) tendsto_const_nhds (xi_slit l.xi))

theorem alphaStar_tendsto {lay lay' : ι → Lay} {l l' : Lay} (h : LayTends f lay l) (h' : LayTends f lay' l') (hg : GoodLay l') :
    Tendsto (fun i => alphaStar (lay i) (lay' i)) f (𝓝 (alphaStar l l')) := by
  unfold alphaStar
  exact ((tendsto_ofReal h.rho).mul (vsStar_tendsto h)).div ((tendsto_ofReal h'.rho).mul (vsStar_tendsto h'))
    (mul_ne_zero (by exact_mod_cast hg.2.ne') (vsStar_good hg))

/-- The four entries of a matrix approach those of another. -/
structure M2Tends (f : Filter ι) (x : ι → M2) (y : M2) : Prop where
  a : Tendsto (fun i => (x i).a) f (𝓝 y.a)
  b : Tendsto (fun i => (x i).b) f (𝓝 y.b)
  c : Tendsto (fun i => (x i).c) f (𝓝 y.c)
  d : Tendsto (fun i => (x i).d) f (𝓝 y.d)

theorem M2Tends.dot {x x' : ι → M2} {y y' : M2} (h : M2Tends f x y) (h' : M2Tends f x' y') : M2Tends f (fun i => (x i).dot (x' i)) (y.dot y') :=
  ⟨(h.a.mul h'.a).add (h.b.mul h'.c), (h.a.mul h'.b).add (h.b.mul h'.d), (h.c.mul h'.a).add (h.d.mul h'.c), (h.c.mul h'.b).add (h.d.mul h'.d)⟩

theorem dMat_tendsto {w : ι → ℝ} {w0 : ℝ} (hw : Tendsto w f (𝓝 w0)) {lay lay' : ι → Lay} {l l' : Lay} (h : LayTends f lay l) (hl : GoodLay l)
    (h' : LayTends f lay' l') (hg : GoodLay l') : M2Tends f (fun i => dMat (w i) (lay i) (lay' i)) (dMat w0 l l') := by
  have hk : Tendsto (fun i => kStar (w i) (lay i)) f (𝓝 (kStar w0 l)) := by
    unfold kStar
    exact (tendsto_ofReal hw).div (vsStar_tendsto h) (vsStar_good hl)
  have e1 : Tendsto (fun i => exp (I * kStar (w i) (lay i) * (lay i).h)) f (𝓝 (exp (I * kStar w0 l * l.h))) :=
    (Complex.continuous_exp.tendsto _).comp ((tendsto_const_nhds.mul hk).mul (tendsto_ofReal h.h))
  have e2 : Tendsto (fun i => exp (-I * kStar (w i) (lay i) * (lay i).h)) f (𝓝 (exp (-I * kStar w0 l * l.h))) :=
    (Complex.continuous_exp.tendsto _).comp ((tendsto_const_nhds.mul hk).mul (tendsto_ofReal h.h))
  have ha := alphaStar_tendsto h h' hg
  exact ⟨tendsto_const_nhds.mul ((tendsto_const_nhds.add ha).mul e1), tendsto_const_nhds.mul ((tendsto_const_nhds.sub ha).mul e2),
    tendsto_const_nhds.mul ((tendsto_const_nhds.sub ha).mul e1), tendsto_const_nhds.mul ((tendsto_const_nhds.add ha).mul e2)⟩

theorem eMat_tendsto {w : ι → ℝ} {w0 : ℝ} (hw : Tendsto w f (𝓝 w0)) : ∀ Φ : List ((ι → Lay) × Lay), (∀ φ ∈ Φ, LayTends f φ.1 φ.2 ∧ GoodLay φ.2) →
    M2Tends f (fun i => eMat (w i) (Φ.map fun φ => φ.1 i)) (eMat w0 (Φ.map Prod.snd)) := by
  intro Φ
  induction Φ with
  | nil => intro _; exact ⟨tendsto_const_nhds, tendsto_const_nhds, tendsto_const_nhds, tendsto_const_nhds⟩
  | cons φ Φ ih =>
    intro h
    cases Φ with
    | nil => exact ⟨tendsto_const_nhds, tendsto_const_nhds, tendsto_const_nhds, tendsto_const_nhds⟩
    | cons ψ Φ =>
      have t := ih fun x hx => h x (List.mem_cons_of_mem _ hx)
      simp only [List.map_cons, eMat_cons] at t ⊢
      have h1 := h φ (by simp)
      have h2 := h ψ (by simp)
      exact t.dot (dMat_tendsto hw h1.1 h1.2 h2.1 h2.2)

theorem profile_family {ls : ι → List Lay} {l0 : List Lay} (h : ProfileTends f ls l0) : ∃ Φ : List ((ι → Lay) × Lay),
    Φ.map Prod.snd = l0 ∧ (∀ φ ∈ Φ, LayTends f φ.1 φ.2) ∧ ∀ᶠ i in f, ls i = Φ.map fun φ => φ.1 i := by
  set d : Lay := ⟨0, 0, 0, 0⟩ with hd
  have gd : ∀ (g : Lay → ℝ) (L : List Lay) (k : ℕ), g d = 0 → (L.map g).getD k 0 = g (L.getD k d) := fun g L k hg => by
    rw [← hg, List.getD_map]
  have key : ∀ (g : Lay → ℝ), g d = 0 → Tendsto (fun i => (ls i).map g) f (𝓝 (l0.map g)) → ∀ k < l0.length,
      Tendsto (fun i => g ((ls i).getD k d)) f (𝓝 (g (l0.getD k d))) := by
    intro g hg ht k hk
    have := ((tendsto_list 0 _ _).1 ht).2 k (by simpa using hk)
    simpa only [gd g _ k hg] using this
  refine ⟨(List.range l0.length).map fun k => ((fun i => (ls i).getD k d), l0.getD k d), ?_, ?_, ?_⟩
  · apply List.ext_getElem
    · simp
    · intro k h1 h2
      simp [h2]
  · intro φ hφ
    obtain ⟨k, hk, rfl⟩ := List.mem_map.1 hφ
    have hk := List.mem_range.1 hk
    exact ⟨key Lay.h rfl h.h k hk, key Lay.vs rfl h.vs k hk, key Lay.xi rfl h.xi k hk, key Lay.rho rfl h.rho k hk⟩
  · have hl := ((tendsto_list 0 _ _).1 h.h).1
    filter_upwards [hl] with i hi
    simp only [List.length_map] at hi
    apply List.ext_getElem
    · simp [hi]
    · intro k h1 h2
      simp [h1]

/-- C198. If thicknesses, velocities, dampings and densities of profiles approach those of a damped profile, and frequencies approach a positive
frequency, then the three transfer functions approach those of the profile at that frequency. -/
theorem C198_continuous {ls : ι → List Lay} {l0 : List Lay} (h : ProfileTends f ls l0) (hne : l0 ≠ []) (hd : ∀ l ∈ l0, DampedLay l)
    {w : ι → ℝ} {w0 : ℝ} (hw : Tendsto w f (𝓝 w0)) (hw0 : 0 < w0) :
    Tendsto (fun i => tfRo (w i) (ls i)) f (𝓝 (tfRo w0 l0)) ∧ Tendsto (fun i => tfIn (w i) (ls i)) f (𝓝 (tfIn w0 l0)) ∧
    Tendsto (fun i => tfBh (w i) (ls i)) f (𝓝 (tfBh w0 l0)) := by
  obtain ⟨Φ, e0, ht, he⟩ := profile_family h
  have t := eMat_tendsto hw Φ fun φ hφ => ⟨ht φ hφ, by
    have := hd φ.2 (by rw [← e0]; exact List.mem_map_of_mem hφ)
    exact ⟨this.2.1, this.2.2.1⟩⟩
  rw [e0] at t
  obtain ⟨n1, n2⟩ := C79_finite w0 hw0 l0 hne hd
  refine ⟨(tendsto_const_nhds.div (t.a.add t.b) n1).congr' ?_, (tendsto_const_nhds.div (t.a.add t.b) n1).congr' ?_,
    (tendsto_const_nhds.div (((t.a.add t.c).add t.b).add t.d) n2).congr' ?_⟩ <;>
  · filter_upwards [he] with i hi
    rw [hi]; rfl

/-! ## Thin layers -/

theorem eMat_zero (w : ℝ) (l m : Lay) (hm : GoodLay m) (post : List Lay) (n : Lay) (hm0 : m.h = 0) :
    eMat w (l :: m :: n :: post) = eMat w (l :: n :: post) := by
  rw [eMat_cons, eMat_cons, eMat_cons]
  have hb : alphaStar l m * alphaStar m n = alphaStar l n := by
    unfold alphaStar
    have h1 := vsStar_good hm
    have h2 : (m.rho : ℂ) ≠ 0 := by exact_mod_cast hm.2.ne'
    field_simp
  have e : (dMat w m n).dot (dMat w l m) = dMat w l n := by
    unfold dMat M2.dot
    rw [hm0, ← hb]
    simp only [ofReal_zero, mul_zero, exp_zero, mul_one, M2.mk.injEq]
    refine ⟨?_, ?_, ?_, ?_⟩ <;> ring
  rw [← e]
  unfold M2.dot
  simp only [M2.mk.injEq]
  refine ⟨?_, ?_, ?_, ?_⟩ <;> ring

theorem eMat_zero_mid (w : ℝ) (m : Lay) (hm : GoodLay m) (post : List Lay) (n : Lay) (hm0 : m.h = 0) : ∀ (pre : List Lay), pre ≠ [] →
    eMat w (pre ++ m :: n :: post) = eMat w (pre ++ n :: post) := by
  intro pre
  induction pre with
  | nil => intro h; exact absurd rfl h
  | cons l pre ih =>
    intro _
    cases pre with
    | nil => exact eMat_zero w l m hm post n hm0
    | cons l' pre =>
      have := ih (by simp)
      simp only [List.cons_append, eMat_cons] at this ⊢
      rw [this]

theorem eMat_zero_top (w : ℝ) (m : Lay) (post : List Lay) (n : Lay) (hm0 : m.h = 0) :
    (eMat w (m :: n :: post)).app (1, 1) = (eMat w (n :: post)).app (1, 1) := by
  rw [eMat_cons]
  have e : (dMat w m n).app (1, 1) = (1, 1) := by
    unfold dMat M2.app
    rw [hm0]
    simp only [ofReal_zero, mul_zero, exp_zero, mul_one, Prod.mk.injEq]
    constructor <;> ring
  conv_rhs => rw [← e]
  unfold M2.dot M2.app
  simp only [Prod.mk.injEq]
  constructor <;> ring

theorem tf_zero (w : ℝ) (pre : List Lay) (m : Lay) (hm : GoodLay m) (n : Lay) (post : List Lay) (hm0 : m.h = 0) :
    tfRo w (pre ++ m :: n :: post) = tfRo w (pre ++ n :: post) ∧ tfIn w (pre ++ m :: n :: post) = tfIn w (pre ++ n :: post) ∧
    tfBh w (pre ++ m :: n :: post) = tfBh w (pre ++ n :: post) := by
  have e : (eMat w (pre ++ m :: n :: post)).app (1, 1) = (eMat w (pre ++ n :: post)).app (1, 1) := by
    cases pre with
    | nil => exact eMat_zero_top w m post n hm0
    | cons l pre => rw [eMat_zero_mid w m hm post n hm0 _ (by simp)]
  unfold tfRo tfIn tfBh
  rw [(eMat_den w _).1, (eMat_den w _).2, (eMat_den w _).1, (eMat_den w _).2, e]
  exact ⟨rfl, rfl, rfl⟩

/-- C198. A layer inserted anywhere above the half space, whatever its velocity, damping and density, has as little effect on the three transfer
functions as one likes if it is thin enough. -/
theorem C198_thin {w : ℝ} (hw : 0 < w) (pre : List Lay) (m : Lay) (n : Lay) (post : List Lay) (hd : ∀ l ∈ pre ++ m :: n :: post, DampedLay l) :
    Tendsto (fun h => tfRo w (pre ++ { m with h := h } :: n :: post)) (𝓝[≥] 0) (𝓝 (tfRo w (pre ++ n :: post))) ∧
    Tendsto (fun h => tfIn w (pre ++ { m with h := h } :: n :: post)) (𝓝[≥] 0) (𝓝 (tfIn w (pre ++ n :: post))) ∧
    Tendsto (fun h => tfBh w (pre ++ { m with h := h } :: n :: post)) (𝓝[≥] 0) (𝓝 (tfBh w (pre ++ n :: post))) := by
  have hm := hd m (by simp)
  have hd0 : ∀ l ∈ pre ++ { m with h := 0 } :: n :: post, DampedLay l := by
    intro l hl
    simp only [List.mem_append, List.mem_cons] at hl
    rcases hl with h | rfl | h | h
    · exact hd l (by simp [h])
    · exact ⟨le_rfl, hm.2⟩
    · exact hd l (by simp [h])
    · exact hd l (by simp [h])
  obtain ⟨z1, z2, z3⟩ := tf_zero w pre { m with h := 0 } ⟨hm.2.1, hm.2.2.1⟩ n post rfl
  rw [← z1, ← z2, ← z3]
  refine C198_continuous (w := fun _ => w) ⟨?_, ?_, ?_, ?_⟩ (by simp) hd0 tendsto_const_nhds hw
  · simp only [List.map_append, List.map_cons]
    have c : Continuous fun h : ℝ => pre.map Lay.h ++ (h :: n.h :: post.map Lay.h) :=
      cont_append.comp (continuous_const.prodMk (List.continuous_cons.comp (continuous_id.prodMk continuous_const)))
    exact (c.tendsto 0).mono_left nhdsWithin_le_nhds
  · simp only [List.map_append, List.map_cons]; exact tendsto_const_nhds
  · simp only [List.map_append, List.map_cons]; exact tendsto_const_nhds
  · simp only [List.map_append, List.map_cons]; exact tendsto_const_nhds

/-! 10 m of soil on rock, and the same with an ever thinner soft layer in between. -/

example : Tendsto (fun h => tfRo 3 [⟨10, 200, 1 / 20, 1800⟩, ⟨h, 80, 1 / 10, 1500⟩, ⟨0, 1000, 1 / 100, 2400⟩]) (𝓝[≥] 0) (𝓝 (tfRo 3 demoLays)) :=
  (C198_thin (by norm_num) [⟨10, 200, 1 / 20, 1800⟩] ⟨1, 80, 1 / 10, 1500⟩ ⟨0, 1000, 1 / 100, 2400⟩ [] (by
    intro l hl
    simp only [List.cons_append, List.nil_append, List.mem_cons, List.not_mem_nil, or_false] at hl
    rcases hl with rfl | rfl | rfl <;> · unfold DampedLay; norm_num)).1

end Verif
