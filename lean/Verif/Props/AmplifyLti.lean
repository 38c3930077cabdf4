import Verif.Props.AmplifyExt
import Verif.Props.MotionSpectra

/-!
C188: amplification of a motion is linear, time invariant and limited in energy: a cyclic shift of the motion shifts the response, a
harmonic motion has a harmonic response, and the energy grows at most by the square of the largest amplification.
-/

set_option linter.unusedSectionVars false
set_option linter.unusedVariables false

open Complex

namespace Verif

open Spec (coeff TfAt Hermitian)

/-! ## Cyclic shifts -/

theorem fft_rotate1 (x : ℂ) (t : List ℂ) (k : Nat) (hk : k < (x :: t).length) :
    (fftL (t ++ [x])).getD k 0 = exp (2 * Real.pi * I * k / (x :: t).length) * (fftL (x :: t)).getD k 0 := by
  have hn : ((x :: t).length : ℂ) ≠ 0 := by exact_mod_cast (by simp : (x :: t).length ≠ 0)
  rw [fftL_getD _ _ (by simpa using hk), fftL_getD _ _ hk]
  have e : (t ++ [x]).length = t.length + 1 := by simp
  have e' : (x :: t).length = t.length + 1 := by simp
  rw [e] at *
  rw [e'] at *
  rw [Finset.sum_range_succ, Finset.sum_range_succ', mul_add, Finset.mul_sum]
  congr 1
  · refine Finset.sum_congr rfl fun j hj => ?_
    rw [List.getD_append _ _ _ _ (Finset.mem_range.1 hj), List.getD_cons_succ]
    rw [mul_left_comm, ← Complex.exp_add]
    congr 2
    push_cast
    push_cast at hn
    field_simp
    ring
  · rw [List.getD_append_right _ _ _ _ le_rfl]
    simp only [Nat.sub_self, List.getD_cons_zero, Nat.cast_zero, mul_zero, zero_mul, zero_div, neg_zero, Complex.exp_zero, mul_one]
    rw [mul_comm]
    congr 1
    rw [← Complex.exp_periodic.sub_nat_mul_eq (x := 2 * Real.pi * I * k / ((t.length + 1 : ℕ) : ℂ)) k]
    congr 1
    push_cast
    push_cast at hn
    field_simp
    ring

theorem fft_rotate (a : List ℂ) (s : Nat) (k : Nat) (hk : k < a.length) :
    (fftL (a.rotate s)).getD k 0 = exp (2 * Real.pi * I * k * s / a.length) * (fftL a).getD k 0 := by
  induction s with
  | zero => simp
  | succ s ih =>
    rw [← List.rotate_rotate]
    cases hb : a.rotate s with
    | nil => have := congrArg List.length hb; simp at this; subst this; simp at hk
    | cons x t =>
      have hl : (x :: t).length = a.length := by rw [← hb]; simp
      have : (x :: t).rotate 1 = t ++ [x] := by simp
      rw [this, fft_rotate1 x t k (by omega), ← hb, ih, hb, hl, ← mul_assoc, ← Complex.exp_add]
      congr 2
      push_cast
      ring

theorem cx_rotate (a : List ℝ) (s : Nat) : cx (a.rotate s) = (cx a).rotate s := by
  unfold cx; rw [List.map_rotate]

/-- C188: if the accelerations of a motion are shifted cyclically, so are those of the response (amplification or deconvolution; transfer
function of any kind; provided the motion did not have to be thinned). -/
theorem C188_shift {x y : Rec ℝ} {f : List ℝ} {tf : TfArg} {extrap deconv : Bool} (h : amplifyMotion x f tf none extrap deconv = .ok y)
    (hlen : y.length = x.length) (s : Nat) :
    amplifyMotion ((x.map Prod.fst).zip ((x.map Prod.snd).rotate s)) f tf none extrap deconv =
      .ok ((y.map Prod.fst).zip ((y.map Prod.snd).rotate s)) := by
  obtain ⟨x', ds, hp, ha, hf⟩ := amplifyMotion_inv h
  obtain ⟨h1, h2, ⟨k, h3⟩, h4⟩ := prepareTf_ok hp
  have hx'l : x'.length = x.length := by rw [← hlen]; have := congrArg List.length hf; simpa using this.symm
  have hx' : x' = x := by
    have aux : ∀ (k : Nat) (x : Rec ℝ), (everySecond^[k] x).length = x.length → 2 ≤ x.length → everySecond^[k] x = x := by
      intro k x hk h2
      cases k with
      | zero => rfl
      | succ k =>
        exfalso
        have le : ∀ (k : Nat) (z : Rec ℝ), (everySecond^[k] z).length ≤ z.length := by
          intro k
          induction k with
          | zero => intro z; exact le_rfl
          | succ k ih =>
            intro z
            rw [Function.iterate_succ_apply]
            refine (ih _).trans ?_
            rw [everySecond_length]; omega
        rw [Function.iterate_succ_apply] at hk
        have := le k (everySecond x)
        rw [everySecond_length] at this
        omega
    have h2 : 2 ≤ x.length := by
      obtain ⟨a, p, fi, fi', tab, ss, _, _, _, _, hf', _, _⟩ := prepareTf_inv hp
      have := (freqInterval_ok hf').1
      omega
    rw [h3]
    exact aux k x (by rw [← h3]; exact hx'l) h2
  subst hx'
  set x2 : Rec ℝ := (x'.map Prod.fst).zip ((x'.map Prod.snd).rotate s) with hx2
  have l2 : (x'.map Prod.fst).length = ((x'.map Prod.snd).rotate s).length := by simp
  have e1 : x2.map Prod.fst = x'.map Prod.fst := List.map_fst_zip l2.le
  have e2 : x2.map Prod.snd = (x'.map Prod.snd).rotate s := List.map_snd_zip l2.ge
  have hp2 := prepareTf_again hp e1
  obtain ⟨hl, hz⟩ := applyTf_inv ha
  obtain ⟨r, hr, hrl, hfr⟩ := applyTf_spec deconv _ ds hl h2 hz
  rw [ha] at hr
  cases hr
  simp only [tapered] at hl hrl hfr
  obtain ⟨r2, hr2, hrl2, hfr2⟩ := applyTf_spec deconv ((x'.map Prod.snd).rotate s) ds (by simpa using hl) h2 hz
  have er : r2 = (y.map Prod.snd).rotate s := by
    apply fft_inj
    have hll : (x'.map Prod.snd).length = (y.map Prod.snd).length := hrl.symm
    apply list_ext_getD
    · rw [fftL_length, fftL_length]; simp [hrl2, hlen]
    · intro j hj
      rw [fftL_length] at hj
      simp [hrl2] at hj
      have hjd : j < ds.length := by rw [← hl]; simpa using hj
      rw [cx_rotate, fft_rotate _ _ _ (by simp [hlen]; omega), hfr2, hfr, cx_rotate]
      have g1 : j < (fftL ((cx (x'.map Prod.snd)).rotate s)).length := by rw [fftL_length]; simpa using hj
      have g2 : j < (fftL (cx (x'.map Prod.snd))).length := by rw [fftL_length]; simpa using hj
      have step : ∀ A : List ℂ, j < A.length →
          (List.zipWith (fun z w => if deconv then z / w else z * w) A ds).getD j 0 =
            if deconv then A.getD j 0 / ds[j] else A.getD j 0 * ds[j] := by
        intro A hA
        simp only [List.getD_eq_getElem?_getD, List.getElem?_zipWith]
        rw [List.getElem?_eq_getElem hA, List.getElem?_eq_getElem hjd]
        simp
      rw [step _ g1, step _ g2, fft_rotate _ _ _ (by simpa using hj)]
      have el : (cx (y.map Prod.snd)).length = (cx (x'.map Prod.snd)).length := by simp [hlen]
      rw [el]
      cases deconv <;> simp <;> ring
  have := amplifyMotion_mk (taper := none) (deconv := deconv) hp2 (r := r2) (by simp only [tapered]; rw [e2]; exact hr2) (by
    rw [hrl2]; rw [hx2]; simp)
  rw [this, er, e1, hf]

/-! ## Harmonic motions -/

/-- Samples `Re (B e^{2πi m j / n})`. -/
noncomputable def Spec.tone (n m : Nat) (B : ℂ) : List ℝ := (List.range n).map fun j : Nat => (B * exp (2 * Real.pi * I * m * j / n)).re

theorem tone_fft (n m : Nat) (B : ℂ) (h0 : 0 < m) (h1 : 2 * m < n) (k : Nat) (hk : k < n) :
    (fftL (cx (Spec.tone n m B))).getD k 0 = if k = m then n / 2 * B else if k = n - m then n / 2 * starRingEnd ℂ B else 0 := by
  have hl : (cx (Spec.tone n m B)).length = n := by simp [Spec.tone]
  have hn : 0 < n := by omega
  have hnc : (n : ℂ) ≠ 0 := by exact_mod_cast hn.ne'
  rw [fftL_getD _ _ (by rw [hl]; exact hk), hl]
  have hterm : ∀ j ∈ Finset.range n, (cx (Spec.tone n m B)).getD j 0 * exp (-(2 * Real.pi * I * j * k / n)) =
      B / 2 * exp (2 * Real.pi * I * ((m : ℤ) - (k : ℤ) : ℤ) * j / n) +
      starRingEnd ℂ B / 2 * exp (2 * Real.pi * I * (-((m : ℤ) + (k : ℤ)) : ℤ) * j / n) := by
    intro j hj
    rw [getD_ofReal]
    have : (Spec.tone n m B).getD j 0 = (B * exp (2 * Real.pi * I * m * j / n)).re := by
      unfold Spec.tone
      rw [List.getD_eq_getElem?_getD, List.getElem?_map, List.getElem?_range (Finset.mem_range.1 hj)]
      rfl
    rw [this, Complex.re_eq_add_conj, map_mul, ← Complex.exp_conj]
    have c : starRingEnd ℂ (2 * Real.pi * I * m * j / n) = -(2 * Real.pi * I * m * j / n) := by
      rw [show (2 * Real.pi * I * m * j / n : ℂ) = ((2 * Real.pi * m * j / n : ℝ) : ℂ) * I by push_cast; ring, map_mul, Complex.conj_ofReal,
        Complex.conj_I]
      ring
    have e1 : exp (2 * Real.pi * I * ((m : ℤ) - (k : ℤ) : ℤ) * j / n) = exp (2 * Real.pi * I * m * j / n) * exp (-(2 * Real.pi * I * j * k / n)) := by
      rw [← Complex.exp_add]; congr 1; push_cast; ring
    have e2 : exp (2 * Real.pi * I * (-((m : ℤ) + (k : ℤ)) : ℤ) * j / n) =
        exp (-(2 * Real.pi * I * m * j / n)) * exp (-(2 * Real.pi * I * j * k / n)) := by
      rw [← Complex.exp_add]; congr 1; push_cast; ring
    rw [c, e1, e2]
    ring
  rw [Finset.sum_congr rfl hterm, Finset.sum_add_distrib, ← Finset.mul_sum, ← Finset.mul_sum, root_sum n hn, root_sum n hn]
  have d1 : (n : ℤ) ∣ ((m : ℤ) - (k : ℤ)) ↔ k = m := by
    constructor
    · intro h
      have := Int.eq_zero_of_abs_lt_dvd h (by rw [abs_lt]; omega)
      omega
    · rintro rfl; simp
  have d2 : (n : ℤ) ∣ -((m : ℤ) + (k : ℤ)) ↔ k = n - m := by
    rw [dvd_neg]
    constructor
    · rintro ⟨q, hq⟩
      have q1 : 0 < q := by
        by_contra hc
        have : (n : ℤ) * q ≤ 0 := mul_nonpos_of_nonneg_of_nonpos (by omega) (by omega)
        omega
      have q2 : q < 2 := by
        by_contra hc
        have : (n : ℤ) * 2 ≤ n * q := mul_le_mul_of_nonneg_left (by omega) (by omega)
        omega
      have : q = 1 := by omega
      subst this
      omega
    · rintro rfl; exact ⟨1, by omega⟩
  simp only [d1, d2]
  by_cases c1 : k = m
  · have : ¬ k = n - m := by omega
    rw [if_pos c1, if_neg this, if_pos c1]; ring
  · rw [if_neg c1, if_neg c1]
    split_ifs <;> ring

theorem tone_unique {n m : Nat} {B w : ℂ} {a r : List ℝ} (h0 : 0 < m) (h1 : 2 * m < n) (ha : a = Spec.tone n m B) (hr : r.length = n)
    {ds : List ℂ} (hfr : fftL (cx r) = List.zipWith (fun z w => z * w) (fftL (cx a)) ds)
    (hw : (fftL (cx r)).getD m 0 = (fftL (cx a)).getD m 0 * w) : r = Spec.tone n m (B * w) := by
  have hal : a.length = n := by rw [ha]; simp [Spec.tone]
  apply fft_inj
  apply list_ext_getD
  · rw [fftL_length, fftL_length]; simp [Spec.tone, hr]
  · intro k hk
    rw [fftL_length] at hk
    have hk' : k < n := by simpa [hr] using hk
    have hmain : (fftL (cx r)).getD m 0 = n / 2 * (B * w) := by
      rw [hw, ha, tone_fft n m B h0 h1 m (by omega), if_pos rfl]; ring
    rw [tone_fft n m _ h0 h1 k hk']
    by_cases c1 : k = m
    · rw [if_pos c1, c1, hmain]
    · rw [if_neg c1]
      by_cases c2 : k = n - m
      · rw [if_pos c2]
        have hh := fft_real_hermitian r
        have e : (fftL (cx r)).getD k 0 = starRingEnd ℂ ((fftL (cx r)).getD m 0) := by
          rw [fftL_getD _ _ hk, fftL_getD _ _ (by simp [hr]; omega), map_sum]
          have hl : (cx r).length = n := by simp [hr]
          rw [hl]
          refine Finset.sum_congr rfl fun j hj => ?_
          rw [getD_ofReal, map_mul, Complex.conj_ofReal, ← Complex.exp_conj]
          congr 1
          have c : starRingEnd ℂ (-(2 * Real.pi * I * j * m / n)) = 2 * Real.pi * I * j * m / n := by
            rw [show (-(2 * Real.pi * I * j * m / n) : ℂ) = ((-(2 * Real.pi * j * m / n) : ℝ) : ℂ) * I by push_cast; ring, map_mul,
              Complex.conj_ofReal, Complex.conj_I]
            push_cast
            ring
          rw [c, ← Complex.exp_periodic.sub_nat_mul_eq (x := 2 * Real.pi * I * j * m / n) j]
          congr 1
          have hnc : (n : ℂ) ≠ 0 := by exact_mod_cast (by omega : n ≠ 0)
          have : (k : ℂ) = n - m := by rw [c2]; push_cast [show m ≤ n by omega]; ring
          rw [this]
          field_simp
          ring
        rw [e, hmain, map_mul, show ((n : ℂ) / 2) = ((n / 2 : ℝ) : ℂ) by push_cast; ring, Complex.conj_ofReal]
      · rw [if_neg c2, hfr]
        rw [List.getD_eq_getElem?_getD, List.getElem?_zipWith]
        have hz : (fftL (cx a)).getD k 0 = 0 := by rw [ha, tone_fft n m B h0 h1 k hk', if_neg c1, if_neg c2]
        have hka : k < (fftL (cx a)).length := by rw [fftL_length]; simp; omega
        rw [List.getD_eq_getElem?_getD, List.getElem?_eq_getElem hka] at hz
        rw [List.getElem?_eq_getElem hka]
        simp at hz
        rw [hz]
        cases ds[k]? <;> simp

/-- C188: a harmonic motion whose frequency is one of the discrete Fourier frequencies has a harmonic response: the same frequency, its complex
amplitude multiplied by the transfer function.  The table is read one frequency step too high (C80). -/
theorem C188_harmonic {x y : Rec ℝ} {f a p : List ℝ} {fi : FreqInt} (hfi : freqInterval x = .ok fi) (hcov : ∃ g ∈ f, fi.fmax ≤ g)
    (h : amplifyMotion x f (.ampPhase a p) none false false = .ok y) (m : Nat) (h0 : 0 < m) (h1 : 2 * m < x.length) (B : ℂ)
    (hx : x.map Prod.snd = Spec.tone x.length m B) :
    ∃ w, TfAt f a p ((m + 1 : ℕ) * fi.df) w ∧ y.map Prod.fst = x.map Prod.fst ∧ y.map Prod.snd = Spec.tone x.length m (B * w) := by
  obtain ⟨e, hw⟩ := C80_frequency_alignment_partial hfi hcov h
  obtain ⟨w, hw1, hw2⟩ := hw m h0 h1
  refine ⟨w, hw1, e, ?_⟩
  obtain ⟨x', ds, hp, ha, hf⟩ := amplifyMotion_inv h
  obtain ⟨p1, p2, _, _⟩ := prepareTf_ok hp
  obtain ⟨hl, hz⟩ := applyTf_inv ha
  obtain ⟨r, hr, hrl, hfr⟩ := applyTf_spec false _ ds hl p2 hz
  rw [ha] at hr
  cases hr
  have hlen : (y.map Prod.snd).length = x.length := by have := congrArg List.length e; simpa using this
  have hx' : x' = x := by
    obtain ⟨a', p', fi0, fi', tab, ss, harg, hfi0, hnil, hb, hf', hs, hds⟩ := prepareTf_inv hp
    rw [hfi] at hfi0
    cases hfi0
    simp only [Bool.false_eq_true, if_false] at hb
    obtain ⟨hal, hpl⟩ : a'.length = f.length ∧ p'.length = f.length := by
      unfold tfArg at harg
      simp only at harg
      split_ifs at harg with c1 c2
      cases harg
      exact ⟨not_not.1 c1, not_not.1 c2⟩
    obtain ⟨g, hg, hgf⟩ := hcov
    have hmax : ¬ tabMax (f.zip (a'.zip p')) < fi.fmax := by
      rw [not_lt]
      refine hgf.trans ?_
      unfold tabMax
      rw [(zip3_fst f a' p' hal hpl).2.2]
      have : ∀ (l : List ℝ) (b : ℝ), g ∈ l → g ≤ l.foldr max b := by
        intro l b hg
        induction l with
        | nil => simp at hg
        | cons c l ih =>
          rcases List.mem_cons.1 hg with rfl | h
          · exact le_max_left _ _
          · exact (ih h).trans (le_max_right _ _)
      exact this _ _ hg
    rw [downsample_self hmax] at hb
    have := hb.1
    rw [Except.ok.injEq, Prod.mk.injEq] at this
    exact this.1.symm
  subst hx'
  simp only [tapered, Bool.false_eq_true, if_false] at hfr
  exact tone_unique h0 h1 hx hlen hfr hw2

/-! ## Energy -/

/-- No amplitude of the table exceeds `G`. -/
def Spec.AmpLe (G : ℝ) : TfArg → Prop
  | .complex tf => ∀ z ∈ tf, ‖z‖ ≤ G
  | .ampPhase a _ => ∀ u ∈ a, |u| ≤ G
  | .other => True

theorem norm_re_le (z : ℂ) : ‖((z.re : ℝ) : ℂ)‖ ≤ ‖z‖ := by
  rw [Complex.norm_real]; exact Complex.abs_re_le_norm z

theorem realFirst_bound {G : ℝ} {l : List ℂ} (h : ∀ z ∈ l, ‖z‖ ≤ G) : ∀ z ∈ realFirst l, ‖z‖ ≤ G := by
  intro z hz
  cases l with
  | nil => simp [realFirst] at hz
  | cons a l =>
    simp only [realFirst, List.mem_cons] at hz
    rcases hz with rfl | hz
    · exact (norm_re_le a).trans (h a (by simp))
    · exact h z (by simp [hz])

theorem realLast_bound {G : ℝ} {l : List ℂ} (h : ∀ z ∈ l, ‖z‖ ≤ G) : ∀ z ∈ realLast l, ‖z‖ ≤ G := by
  intro z hz
  unfold realLast at hz
  split at hz
  · simp at hz
  · rename_i u hu
    rcases List.mem_append.1 hz with h1 | h1
    · exact h z (List.mem_of_mem_dropLast h1)
    · rw [List.mem_singleton.1 h1]
      exact (norm_re_le u).trans (h u (List.mem_of_getLast? hu))

theorem tfSingle_bound {G : ℝ} {tab : TfTab} {n : Nat} {f : List ℝ} {ss : List ℂ} (h : tfSingle tab n f = .ok ss)
    (hb : ∀ r ∈ tab, |r.2.1| ≤ G) : ∀ z ∈ ss, ‖z‖ ≤ G := by
  unfold tfSingle at h
  cases ha : f.mapM (npInterp (tab.map fun r => (r.1, r.2.1))) with
  | error e => rw [ha] at h; cases h
  | ok a =>
    cases hp : f.mapM (npInterp (tab.map fun r => (r.1, r.2.2))) with
    | error e => rw [ha, hp] at h; cases h
    | ok p =>
      rw [ha, hp] at h
      obtain ⟨hal, hag⟩ := mapM_ok _ _ _ ha
      have hu : ∀ u ∈ a, |u| ≤ G := by
        intro u hu
        obtain ⟨i, hi⟩ := List.getElem?_of_mem hu
        have hi2 : i < f.length := by rw [← hal]; exact (List.getElem?_eq_some_iff.1 hi).1
        obtain ⟨v, hv1, hv2⟩ := hag i f[i] (List.getElem?_eq_getElem hi2)
        rw [hi] at hv2
        cases hv2
        have := npInterp_bounds (lo := -G) (hi := G) hv1 (by
          intro q hq
          obtain ⟨r, hr, rfl⟩ := List.mem_map.1 hq
          exact abs_le.1 (hb r hr))
        exact abs_le.2 this
      have hz : ∀ z ∈ List.zipWith (fun (x y : ℝ) => (x : ℂ) * exp (I * y)) a p, ‖z‖ ≤ G := by
        intro z hz
        obtain ⟨i, hi⟩ := List.getElem?_of_mem hz
        rw [List.getElem?_zipWith_eq_some] at hi
        obtain ⟨u, v, h1, h2, rfl⟩ := hi
        rw [norm_mul, mul_comm I, Complex.norm_exp_ofReal_mul_I, mul_one, Complex.norm_real]
        exact hu u (List.mem_of_getElem? h1)
      have hs : ss = if n % 2 = 0 then realLast (realFirst (List.zipWith (fun (x y : ℝ) => (x : ℂ) * exp (I * y)) a p))
          else realFirst (List.zipWith (fun (x y : ℝ) => (x : ℂ) * exp (I * y)) a p) := by cases h; rfl
      rw [hs]
      split_ifs
      · exact realLast_bound (realFirst_bound hz)
      · exact realFirst_bound hz

theorem tfDouble_bound {G : ℝ} {n half : Nat} {tf : List ℂ} (h : ∀ z ∈ tf, ‖z‖ ≤ G) : ∀ z ∈ tfDouble n half tf, ‖z‖ ≤ G := by
  intro z hz
  unfold tfDouble at hz
  have aux : ∀ k, z ∈ tf ++ (((tf.take k).drop 1).reverse.map (starRingEnd ℂ)) → ‖z‖ ≤ G := by
    intro k hk
    rcases List.mem_append.1 hk with h1 | h1
    · exact h z h1
    · obtain ⟨u, hu, rfl⟩ := List.mem_map.1 h1
      rw [RCLike.norm_conj]
      exact h u (List.mem_of_mem_take (List.mem_of_mem_drop (List.mem_reverse.1 hu)))
  split_ifs at hz <;> exact aux _ hz

theorem prepareTf_bound {G : ℝ} {x x' : Rec ℝ} {f : List ℝ} {tf : TfArg} {extrap : Bool} {ds : List ℂ}
    (h : prepareTf x f tf extrap = .ok (x', ds)) (hG : Spec.AmpLe G tf) (h1 : extrap = true → 1 ≤ G) : ∀ z ∈ ds, ‖z‖ ≤ G := by
  obtain ⟨a, p, fi, fi', tab, ss, harg, hfi, hnil, hb, hf', hs, hds⟩ := prepareTf_inv h
  have ha : ∀ u ∈ a, |u| ≤ G := by
    cases tf with
    | complex t =>
      simp only [tfArg] at harg
      split_ifs at harg
      cases harg
      intro u hu
      obtain ⟨z, hz, rfl⟩ := List.mem_map.1 hu
      rw [abs_norm]
      exact hG z hz
    | ampPhase a' p' =>
      simp only [tfArg] at harg
      split_ifs at harg
      cases harg
      exact hG
    | other => simp [tfArg] at harg
  have hbase : ∀ r ∈ f.zip (a.zip p), |r.2.1| ≤ G := by
    intro r hr
    have h2 := (List.of_mem_zip hr).2
    exact ha _ (List.of_mem_zip h2).1
  have htab : ∀ r ∈ tab, |r.2.1| ≤ G := by
    cases extrap with
    | false =>
      simp only [Bool.false_eq_true, if_false] at hb
      rw [hb.2]; exact hbase
    | true =>
      simp only [if_true] at hb
      obtain ⟨t, ht, rfl, _, _⟩ := hb
      have hth : ∀ r ∈ t, |r.2.1| ≤ G := by
        unfold extendHigh at ht
        split_ifs at ht with c
        · split at ht
          · cases ht
          · rename_i g u v hl
            split_ifs at ht
            cases ht
            intro r hr
            rcases List.mem_append.1 hr with h3 | h3
            · exact hbase r h3
            · rw [List.mem_singleton.1 h3]
              exact hbase (g, u, v) (List.mem_of_getLast? hl)
        · cases ht; exact hbase
      intro r hr
      unfold extendLow at hr
      split_ifs at hr with c
      · rcases List.mem_cons.1 hr with rfl | h3
        · simpa using h1 rfl
        · exact hth r h3
      · exact hth r hr
  rw [hds]
  exact tfDouble_bound (tfSingle_bound hs htab)

theorem energy_step {a r : List ℝ} {ds : List ℂ} {G : ℝ} (hG0 : 0 ≤ G) (hl : a.length = ds.length) (hr : r.length = a.length)
    (hb : ∀ z ∈ ds, ‖z‖ ≤ G) (hf : fftL (cx r) = List.zipWith (fun z w => z * w) (fftL (cx a)) ds) :
    (r.map fun v => v ^ 2).sum ≤ G ^ 2 * (a.map fun v => v ^ 2).sum := by
  rcases Nat.eq_zero_or_pos a.length with h0 | h0
  · have e1 : a = [] := List.length_eq_zero_iff.1 h0
    have e2 : r = [] := List.length_eq_zero_iff.1 (by omega)
    simp [e1, e2]
  have hco : ∀ (b : List ℝ) (k : Nat), k < b.length → (fftL (cx b)).getD k 0 = coeff b k := by
    intro b k hk
    rw [fftL_getD _ _ (by simpa using hk), coeff, List.length_map]
    exact Finset.sum_congr rfl fun j _ => by rw [getD_ofReal]
  have hstep : ∀ k ∈ Finset.range a.length, ‖coeff r k‖ ^ 2 ≤ G ^ 2 * ‖coeff a k‖ ^ 2 := by
    intro k hk
    have hk := Finset.mem_range.1 hk
    have hkd : k < ds.length := by omega
    rw [← hco r k (by omega), ← hco a k hk, hf]
    have hka : k < (fftL (cx a)).length := by rw [fftL_length]; simpa using hk
    rw [List.getD_eq_getElem?_getD, List.getElem?_zipWith, List.getElem?_eq_getElem hka, List.getElem?_eq_getElem hkd,
      List.getD_eq_getElem?_getD, List.getElem?_eq_getElem hka]
    simp only [Option.getD_some, norm_mul, mul_pow]
    rw [mul_comm]
    exact mul_le_mul_of_nonneg_right (pow_le_pow_left₀ (norm_nonneg _) (hb _ (List.getElem_mem hkd)) 2) (by positivity)
  have hsum := Finset.sum_le_sum hstep
  rw [← Finset.mul_sum, parseval, show Finset.range a.length = Finset.range r.length by rw [hr], parseval, hr] at hsum
  have hp : (0 : ℝ) < a.length := by exact_mod_cast h0
  have : (a.length : ℝ) * (r.map fun v => v ^ 2).sum ≤ a.length * (G ^ 2 * (a.map fun v => v ^ 2).sum) := by linarith
  exact le_of_mul_le_mul_left this hp

/-- C188: the energy (sum of squared accelerations) of the response is at most `G²` times that of the motion if no amplitude of the table
exceeds `G` (with extrapolation, also 1 is used as an amplitude).  Deconvolution loses no more than this factor. -/
theorem C188_energy {x y : Rec ℝ} {f : List ℝ} {tf : TfArg} {extrap deconv : Bool} (h : amplifyMotion x f tf none extrap deconv = .ok y)
    (G : ℝ) (hG0 : 0 ≤ G) (hG : Spec.AmpLe G tf) (h1 : extrap = true → 1 ≤ G) :
    ∃ x' : Rec ℝ, (∃ k : Nat, x' = everySecond^[k] x) ∧ (extrap = true → x' = x) ∧
      (deconv = false → (y.map fun q => q.2 ^ 2).sum ≤ G ^ 2 * (x'.map fun q => q.2 ^ 2).sum) ∧
      (deconv = true → (x'.map fun q => q.2 ^ 2).sum ≤ G ^ 2 * (y.map fun q => q.2 ^ 2).sum) := by
  obtain ⟨x', ds, hp, ha, hf⟩ := amplifyMotion_inv h
  obtain ⟨p1, p2, p3, p4⟩ := prepareTf_ok hp
  obtain ⟨hl, hz⟩ := applyTf_inv ha
  obtain ⟨r, hr, hrl, hfr⟩ := applyTf_spec deconv _ ds hl p2 hz
  rw [ha] at hr
  cases hr
  have hb := prepareTf_bound hp hG h1
  simp only [tapered] at hl hrl hfr
  have em : ∀ z : Rec ℝ, (z.map fun q => q.2 ^ 2) = (z.map Prod.snd).map fun v => v ^ 2 := by intro z; rw [List.map_map]; rfl
  refine ⟨x', p3, p4, fun hd => ?_, fun hd => ?_⟩
  · subst hd
    rw [em, em]
    simp only [Bool.false_eq_true, if_false] at hfr
    exact energy_step hG0 hl hrl hb hfr
  · subst hd
    rw [em, em]
    simp only [if_true] at hfr
    refine energy_step hG0 (by rw [hrl, hl]) hrl.symm hb ?_
    rw [hfr]
    exact (zipWith_cancel (fun z w => z / w) (fun z w => z * w) _ ds (by rw [fftL_length]; simpa using hl) (fun z w hw => by
      have : w ≠ 0 := fun h0 => hz rfl (h0 ▸ hw)
      field_simp)).symm

theorem le_sum_sq : ∀ (l : List ℝ) (v : ℝ), v ∈ l → v ^ 2 ≤ (l.map fun v => v ^ 2).sum := by
  intro l v hv
  exact List.single_le_sum (by intro x hx; obtain ⟨u, -, rfl⟩ := List.mem_map.1 hx; positivity) _ (List.mem_map.2 ⟨v, hv, rfl⟩)

/-- C188: linear site response of a motion: its energy grows at most by the square of the largest amplification of the soil column, and no
acceleration of the response exceeds that amplification times the square root of the energy of the motion. -/
theorem C188_site {ls : List Lay} {x y : Rec ℝ} {b : BoundaryArg} {f : List ℝ} {tf : List ℂ} (h : linearSiteResp ls x b false = .ok (y, f, tf))
    (G : ℝ) (h1 : 1 ≤ G) (hG : ∀ w, ‖(match b with | .elastic => tfRo w ls | _ => tfBh w ls)‖ ≤ G) :
    (y.map fun q => q.2 ^ 2).sum ≤ G ^ 2 * (x.map fun q => q.2 ^ 2).sum ∧
    ∀ q ∈ y, |q.2| ≤ G * Real.sqrt ((x.map fun q => q.2 ^ 2).sum) := by
  have e : ∃ tf', amplifyMotion x f (.complex tf') none true false = .ok y ∧ ∀ z ∈ tf', ‖z‖ ≤ G := by
    unfold linearSiteResp at h
    cases hfi : freqInterval x with
    | error e => rw [hfi] at h; cases h
    | ok fi =>
      rw [hfi] at h
      simp only [bind, Except.bind] at h
      cases b with
      | other => simp at h
      | elastic =>
        simp only at h
        split at h
        · cases h
        · rename_i y' hy'
          cases h
          refine ⟨_, hy', ?_⟩
          intro z hz
          obtain ⟨r, hr, rfl⟩ := List.mem_map.1 hz
          unfold linearTf at hr
          obtain ⟨g, hg, rfl⟩ := List.mem_map.1 hr
          exact hG _
      | rigid =>
        simp only at h
        split at h
        · cases h
        · rename_i y' hy'
          cases h
          refine ⟨_, hy', ?_⟩
          intro z hz
          obtain ⟨r, hr, rfl⟩ := List.mem_map.1 hz
          unfold linearTf at hr
          obtain ⟨g, hg, rfl⟩ := List.mem_map.1 hr
          exact hG _
  obtain ⟨tf', h2, h3⟩ := e
  obtain ⟨x', -, hx', hen, -⟩ := C188_energy h2 G (by linarith) h3 (fun _ => h1)
  rw [hx' rfl] at hen
  refine ⟨hen rfl, fun q hq => ?_⟩
  have em : (y.map fun q => q.2 ^ 2) = (y.map Prod.snd).map fun v => v ^ 2 := by rw [List.map_map]; rfl
  have hs := le_sum_sq (y.map Prod.snd) q.2 (List.mem_map.2 ⟨q, hq, rfl⟩)
  rw [← em] at hs
  have := hs.trans (hen rfl)
  refine abs_le_of_sq_le_sq ?_ (mul_nonneg (by linarith) (Real.sqrt_nonneg _))
  rw [mul_pow, Real.sq_sqrt (List.sum_nonneg (by intro v hv; obtain ⟨u, -, rfl⟩ := List.mem_map.1 hv; positivity))]
  exact this

/-! ## Cases -/

/-- Four samples per period of unit amplitude. -/
example : Spec.tone 4 1 1 = [1, 0, -1, 0] := by
  have e : ∀ j : Nat, (1 * exp (2 * Real.pi * I * (1 : ℕ) * j / (4 : ℕ))).re = Real.cos (Real.pi / 2 * j) := by
    intro j
    rw [one_mul, show (2 * Real.pi * I * (1 : ℕ) * j / (4 : ℕ) : ℂ) = ((Real.pi / 2 * j : ℝ) : ℂ) * I by push_cast; ring,
      Complex.exp_ofReal_mul_I_re]
  unfold Spec.tone
  simp only [e]
  rw [show List.range 4 = [0, 1, 2, 3] by rfl]
  have h3 : Real.cos (Real.pi / 2 * 3) = 0 := by
    rw [show Real.pi / 2 * 3 = Real.pi / 2 + Real.pi by ring, Real.cos_add_pi, Real.cos_pi_div_two, neg_zero]
  have h2 : Real.cos (Real.pi / 2 * 2) = -1 := by rw [show Real.pi / 2 * 2 = Real.pi by ring, Real.cos_pi]
  simp [h2, h3]

/-- Soil like the rock below it: no response has more energy than its motion. -/
example (l : Lay) (x : Rec ℝ) (p q : ℝ × ℝ) (rest : Rec ℝ) (hx : x = p :: q :: rest) (hdt : p.1 < q.1) :
    ∃ y f tf, linearSiteResp [l] x .elastic false = .ok (y, f, tf) ∧ (y.map fun q => q.2 ^ 2).sum ≤ (x.map fun q => q.2 ^ 2).sum := by
  obtain ⟨y, f, tf, h, -⟩ := C82_site_response [l] x p q rest hx hdt .elastic (by simp)
  refine ⟨y, f, tf, h, ?_⟩
  have := (C188_site h 1 le_rfl (fun w => by simp only; rw [(C33_uniform w l).1]; simp)).1
  simpa using this

end Verif
