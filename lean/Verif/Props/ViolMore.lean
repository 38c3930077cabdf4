import Verif.Props.MotionObj
import Verif.Props.ScoreProc
import Verif.Props.AmplifyExt
import Verif.Props.PhaseExact

/-!
General forms of violated properties: C27 (uneven records), C86 (transfer functions whose phase begins with a climb).
-/

set_option linter.unusedSectionVars false
set_option linter.unusedVariables false

namespace Verif

/-- The accelerations `l` at the times `t0`, `t0 + dt`, `t0 + 2 dt`, … -/
def Spec.evenly {K : Type} [_root_.Field K] (t0 dt : K) : List K → List (K × K)
  | [] => []
  | a :: l => (t0, a) :: Spec.evenly (t0 + dt) dt l

section C27

variable {K : Type} [Field K] [LinearOrder K] [IsStrictOrderedRing K]

open Spec (evenly)

theorem evenly_vals (t0 dt : K) (l : List K) : (evenly t0 dt l).map Prod.snd = l := by
  induction l generalizing t0 with
  | nil => rfl
  | cons a l ih => simp [evenly, ih]

theorem evenly_diff (t0 dt : K) (l : List K) : ∀ x ∈ diff ((evenly t0 dt l).map Prod.fst), x = dt := by
  induction l generalizing t0 with
  | nil => simp [evenly, diff]
  | cons a l ih =>
    cases l with
    | nil => simp [evenly, diff]
    | cons b l =>
      intro x hx
      simp only [evenly, List.map_cons, diff, List.mem_cons] at hx
      rcases hx with rfl | hx
      · ring
      · exact ih (t0 + dt) x (by simpa [evenly] using hx)

/-- C27 fails for every record whose later intervals are no longer than the first one, however uneven: no error is raised, and the spectra are those of the
accelerations spaced evenly by the first interval. -/
theorem C27_shorter_violated (coef : K → K → Coefs K) (xi : K) (wns : List K) (t0 a0 t1 a1 : K) (rest : Rec K)
    (h : ∀ x ∈ diff (((t0, a0) :: (t1, a1) :: rest).map Prod.fst), x ≤ t1 - t0) :
    ∃ rows, responseSpectra coef xi wns 1 ((t0, a0) :: (t1, a1) :: rest) = .ok rows ∧
      responseSpectra coef xi wns 1 (evenly t0 (t1 - t0) (a0 :: a1 :: rest.map Prod.snd)) = .ok rows := by
  have pos : (0 : K) < 1 / 10 ^ 7 := by positivity
  have s1 : spacingOk (((t0, a0) :: (t1, a1) :: rest).map Prod.fst) = .ok () := by
    unfold spacingOk
    simp only [List.map_cons, diff]
    rw [if_pos]
    intro x hx
    have := h x (by simpa [diff] using hx)
    linarith
  have s2 : spacingOk ((evenly t0 (t1 - t0) (a0 :: a1 :: rest.map Prod.snd)).map Prod.fst) = .ok () := by
    have hall := evenly_diff t0 (t1 - t0) (a0 :: a1 :: rest.map Prod.snd)
    unfold spacingOk
    simp only [evenly, List.map_cons, diff] at hall ⊢
    rw [if_pos]
    intro x hx
    rw [hall x hx]
    ring_nf
    norm_num
  refine ⟨wns.map fun wn => timeStepping (coef wn (t1 - t0)) wn xi (a0 :: a1 :: rest.map Prod.snd), ?_, ?_⟩
  rotate_left
  · unfold responseSpectra
    rw [if_neg one_ne_zero, subsample_self]
    simp only [s2, evenly_vals, bind, Except.bind]
    simp [evenly, dtOf, pure, Except.pure]
  · unfold responseSpectra
    rw [if_neg one_ne_zero, subsample_self]
    simp only [s1, bind, Except.bind]
    simp [dtOf, pure, Except.pure]

example : ∃ rows, responseSpectra (K := ℚ) (fun _ _ => ⟨1, 0, 0, 0, 0, 1, 0, 0⟩) 0 [1, 2] 1 [(0, 1), (1, 2), (3 / 2, 5), (8 / 5, 0)] = .ok rows ∧
    responseSpectra (K := ℚ) (fun _ _ => ⟨1, 0, 0, 0, 0, 1, 0, 0⟩) 0 [1, 2] 1 [(0, 1), (1, 2), (2, 5), (3, 0)] = .ok rows := by
  have := C27_shorter_violated (K := ℚ) (fun _ _ => ⟨1, 0, 0, 0, 0, 1, 0, 0⟩) 0 [1, 2] 0 1 1 2 [(3 / 2, 5), (8 / 5, 0)] (by decide +kernel)
  simpa [Spec.evenly, show (0 : ℚ) + (1 - 0) = 1 by norm_num, show (1 : ℚ) + 1 = 2 by norm_num, show (2 : ℚ) + 1 = 3 by norm_num] using this

end C27

open Complex

/-- C86 fails for every transfer function whose phase rises from the first sample to a peak at `p` and then falls: the sample before the peak is used with
the phase -π, that is as `-‖z‖`, whatever it was, and the samples before it with phases on a line that starts at the phase of the last sample of all. -/
theorem C86_initial_climb_violated (tf : List ℂ) (p : Nat) (h : Spec.FirstClimb (tf.map arg) p) :
    ∃ a ph, tfArg tf.length (.complex tf) = .ok (a, ph) ∧
      (∀ (j : Nat) z, j < p → tf[j]? = some z → ∃ u v : ℝ, a[j]? = some u ∧ ph[j]? = some v ∧
        (u : ℂ) * exp (I * v) = ‖z‖ * exp (I * ((Spec.at0 (tf.map arg) (tf.length - 1) +
          ((j + 1 : Nat) : ℝ) / (p : ℝ) * (-Real.pi - Spec.at0 (tf.map arg) (tf.length - 1)) : ℝ) : ℂ))) ∧
      (∀ z, tf[p - 1]? = some z → ∃ u v : ℝ, a[p - 1]? = some u ∧ ph[p - 1]? = some v ∧ (u : ℂ) * exp (I * v) = -‖z‖) := by
  obtain ⟨r1, r2, _⟩ := C32_initial_climb_violated Real.pi (tf.map arg) p h
  obtain ⟨n1, _, n3, _⟩ := C32_unwrap Real.pi Real.pi Real.pi_pos 0 (repair Real.pi (tf.map arg)) ⟨0, by simp⟩
  have main : ∀ (j : Nat) z, j < p → tf[j]? = some z → ∃ v : ℝ, (tf.map fun z => ‖z‖)[j]? = some ‖z‖ ∧
      (robustUnwrap Real.pi Real.pi (tf.map arg))[j]? = some v ∧
        (‖z‖ : ℂ) * exp (I * v) = ‖z‖ * exp (I * ((Spec.at0 (tf.map arg) (tf.length - 1) +
          ((j + 1 : Nat) : ℝ) / (p : ℝ) * (-Real.pi - Spec.at0 (tf.map arg) (tf.length - 1)) : ℝ) : ℂ)) := by
    intro j z hj hz
    have hrep := r2 j hj
    have hi : j < (npUnwrapFrom Real.pi Real.pi 0 (repair Real.pi (tf.map arg))).length := by
      rw [n1, r1]
      by_contra hc
      rw [List.getElem?_eq_none (by simpa using hc)] at hz; cases hz
    obtain ⟨k, hk⟩ := n3 j _ _ hrep (List.getElem?_eq_getElem hi)
    refine ⟨_, by rw [List.getElem?_map, hz]; rfl, List.getElem?_eq_getElem hi, ?_⟩
    rw [hk, List.length_map, Complex.ofReal_add, mul_add, Complex.exp_add]
    have : exp (I * ((2 * Real.pi * (k : ℝ) : ℝ) : ℂ)) = 1 := by
      rw [show I * ((2 * Real.pi * (k : ℝ) : ℝ) : ℂ) = (k : ℂ) * (2 * Real.pi * I) by push_cast; ring, Complex.exp_int_mul_two_pi_mul_I]
    rw [this, mul_one]
  refine ⟨tf.map fun z => ‖z‖, robustUnwrap Real.pi Real.pi (tf.map arg), by unfold tfArg; simp, ?_, ?_⟩
  · intro j z hj hz
    obtain ⟨v, h1, h2, h3⟩ := main j z hj hz
    exact ⟨_, v, h1, h2, h3⟩
  · intro z hz
    have hp : 0 < p := h.some'
    obtain ⟨v, h1, h2, h3⟩ := main (p - 1) z (by omega) hz
    refine ⟨_, v, h1, h2, ?_⟩
    rw [h3, show p - 1 + 1 = p by omega, div_self (by exact_mod_cast hp.ne'), one_mul]
    rw [show I * ((Spec.at0 (tf.map arg) (tf.length - 1) + (-Real.pi - Spec.at0 (tf.map arg) (tf.length - 1)) : ℝ) : ℂ) = -(Real.pi * I) by
      push_cast; ring, Complex.exp_neg, Complex.exp_pi_mul_I]
    norm_num

end Verif
