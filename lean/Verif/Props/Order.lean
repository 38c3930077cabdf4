import Verif.Props.AmplifyLti

/-!
C222: the order in which a motion is passed through two deposits (or transfer functions) does not matter.
-/

set_option linter.unusedSectionVars false
set_option linter.unusedVariables false

namespace Verif

open Spec (Hermitian)

theorem zipWith_swap (f g : ℂ → ℂ → ℂ) (hfg : ∀ a b c, g (f a b) c = f (g a c) b) : ∀ (A B C : List ℂ),
    List.zipWith g (List.zipWith f A B) C = List.zipWith f (List.zipWith g A C) B
  | [], _, _ => by simp
  | _ :: _, [], C => by cases C <;> simp
  | _ :: _, _ :: _, [] => by simp
  | a :: A, b :: B, c :: C => by
    simp only [List.zipWith_cons_cons, hfg, zipWith_swap f g hfg A B C]

/-- C222, transfer functions: multiplying the spectrum of a motion by one transfer function (or dividing by it) and then by another one
gives the same motion in either order; each of the two needs to be applicable to the motion. -/
theorem C222_amplify {x y₁ y₂ : Rec ℝ} {f₁ f₂ : List ℝ} {t₁ t₂ : TfArg} {d₁ d₂ : Bool}
    (h₁ : amplifyMotion x f₁ t₁ none true d₁ = .ok y₁) (h₂ : amplifyMotion x f₂ t₂ none true d₂ = .ok y₂) :
    ∃ z, amplifyMotion y₁ f₂ t₂ none true d₂ = .ok z ∧ amplifyMotion y₂ f₁ t₁ none true d₁ = .ok z ∧
      z.map Prod.fst = x.map Prod.fst := by
  obtain ⟨x₁, s₁, p₁, a₁, e₁⟩ := amplifyMotion_inv h₁
  obtain ⟨x₂, s₂, p₂, a₂, e₂⟩ := amplifyMotion_inv h₂
  obtain ⟨l₁, H₁, _, q₁⟩ := prepareTf_ok p₁
  obtain ⟨l₂, H₂, _, q₂⟩ := prepareTf_ok p₂
  have q₁ := q₁ rfl
  have q₂ := q₂ rfl
  subst q₁
  subst q₂
  simp only [tapered] at a₁ a₂
  have g₁ := prepareTf_again p₁ e₂
  have g₂ := prepareTf_again p₂ e₁
  obtain ⟨-, z₁⟩ := applyTf_inv a₁
  obtain ⟨-, z₂⟩ := applyTf_inv a₂
  obtain ⟨r₁, b₁, c₁, F₁⟩ := applyTf_spec d₁ (x₂.map Prod.snd) s₁ (by simp [l₁]) H₁ z₁
  obtain ⟨r₂, b₂, c₂, F₂⟩ := applyTf_spec d₂ (x₂.map Prod.snd) s₂ (by simp [l₂]) H₂ z₂
  have := Except.ok.inj (a₁.symm.trans b₁)
  rw [← this] at F₁ c₁
  have := Except.ok.inj (a₂.symm.trans b₂)
  rw [← this] at F₂ c₂
  obtain ⟨u₁, v₁, w₁, G₁⟩ := applyTf_spec d₂ (y₁.map Prod.snd) s₂ (by rw [c₁]; simp [l₂]) H₂ z₂
  obtain ⟨u₂, v₂, w₂, G₂⟩ := applyTf_spec d₁ (y₂.map Prod.snd) s₁ (by rw [c₂]; simp [l₁]) H₁ z₁
  have hu : u₁ = u₂ := by
    apply fft_inj
    rw [G₁, G₂, F₁, F₂]
    apply zipWith_swap (fun z w => if d₁ then z / w else z * w) (fun z w => if d₂ then z / w else z * w)
    intro a b c
    cases d₁ <;> cases d₂ <;> simp <;> ring
  subst hu
  have hlen : (x₂.map Prod.fst).length = u₁.length := by rw [w₁, c₁]; simp
  refine ⟨(x₂.map Prod.fst).zip u₁, ?_, ?_, List.map_fst_zip hlen.le⟩
  · unfold amplifyMotion
    rw [g₂]
    simp only [bind, Except.bind, tapered, v₁]
    unfold colStack
    rw [e₁, if_neg (by simpa using hlen)]
  · unfold amplifyMotion
    rw [g₁]
    simp only [bind, Except.bind, tapered, v₂]
    unfold colStack
    rw [e₂, if_neg (by simpa using hlen)]

theorem site_amplify {ls : List Lay} {x y : Rec ℝ} {b : BoundaryArg} {d : Bool} {f : List ℝ} {tf : List ℂ}
    (h : linearSiteResp ls x b d = .ok (y, f, tf)) :
    amplifyMotion x f (.complex tf) none true d = .ok y ∧
    ∀ x' y' : Rec ℝ, x'.map Prod.fst = x.map Prod.fst → amplifyMotion x' f (.complex tf) none true d = .ok y' →
      linearSiteResp ls x' b d = .ok (y', f, tf) := by
  unfold linearSiteResp at h ⊢
  cases hfi : freqInterval x with
  | error e => rw [hfi] at h; cases h
  | ok fi =>
    rw [hfi] at h
    simp only [bind, Except.bind] at h
    cases b with
    | other => simp at h
    | elastic =>
      simp only at h
      split at h
      · cases h
      · rename_i y₀ hy₀
        cases h
        refine ⟨hy₀, fun x' y' ht h' => ?_⟩
        rw [freqInterval_congr ht, hfi]
        simp only [bind, Except.bind, h']
        rfl
    | rigid =>
      simp only at h
      split at h
      · cases h
      · rename_i y₀ hy₀
        cases h
        refine ⟨hy₀, fun x' y' ht h' => ?_⟩
        rw [freqInterval_congr ht, hfi]
        simp only [bind, Except.bind, h']
        rfl

/-- C222, deposits: amplifying a motion by (or deconvolving it from) one deposit and then another one gives the same motion in either
order, whatever the boundaries. -/
theorem C222_site {ls₁ ls₂ : List Lay} {x y₁ y₂ : Rec ℝ} {b₁ b₂ : BoundaryArg} {d₁ d₂ : Bool} {f₁ f₂ : List ℝ} {t₁ t₂ : List ℂ}
    (h₁ : linearSiteResp ls₁ x b₁ d₁ = .ok (y₁, f₁, t₁)) (h₂ : linearSiteResp ls₂ x b₂ d₂ = .ok (y₂, f₂, t₂)) :
    ∃ z, linearSiteResp ls₂ y₁ b₂ d₂ = .ok (z, f₂, t₂) ∧ linearSiteResp ls₁ y₂ b₁ d₁ = .ok (z, f₁, t₁) ∧
      z.map Prod.fst = x.map Prod.fst := by
  obtain ⟨a₁, c₁⟩ := site_amplify h₁
  obtain ⟨a₂, c₂⟩ := site_amplify h₂
  obtain ⟨z, e₁, e₂, e₃⟩ := C222_amplify a₁ a₂
  obtain ⟨x₁, _, p₁, _, q₁⟩ := amplifyMotion_inv a₁
  obtain ⟨x₂, _, p₂, _, q₂⟩ := amplifyMotion_inv a₂
  rw [(prepareTf_ok p₁).2.2.2 rfl] at q₁
  rw [(prepareTf_ok p₂).2.2.2 rfl] at q₂
  exact ⟨z, c₂ y₁ z q₁ e₁, c₁ y₂ z q₂ e₂, e₃⟩

/-- An instance: a transfer function 1 and any other one. -/
example (t : TfArg) (f : List ℝ) (y : Rec ℝ) (h : amplifyMotion [(0, 1), (1, 3), (2, -1)] f t none true false = .ok y) :
    ∃ z, amplifyMotion [(0, 1), (1, 3), (2, -1)] f t none true false = .ok z ∧
      amplifyMotion y [1 / 10, 5] (.ampPhase [1, 1] [0, 0]) none true true = .ok z := by
  have h1 := C30_unit_tf [(0, 1), (1, 3), (2, -1)] (0, 1) (1, 3) [(2, -1)] rfl (by norm_num) [1 / 10, 5] (by simp) (by
    intro g hg; simp at hg; rcases hg with rfl | rfl <;> norm_num) true
  obtain ⟨z, e1, e2, _⟩ := C222_amplify h1 h
  exact ⟨z, e1, e2⟩

end Verif
