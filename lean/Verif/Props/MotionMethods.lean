import Verif.Model.MotionMethods
import Verif.Props.AmplifyExt
import Verif.Props.Baseline
import Verif.Props.VsProfile

set_option linter.unusedSectionVars false
set_option linter.unusedVariables false

/-!
Property C126: the methods of a ground motion which derive another motion.
-/

namespace Verif

open Spec (times vals Uniform Valid5 DampedLay nyquist)

section
variable {K : Type} [Field K] [LinearOrder K] [IsStrictOrderedRing K]

/-! ## Filters -/

theorem filterOne_out (design : Design K) (n : Nat) (high : Bool) (c : K) (x : Rec K) :
    filterOne design n high c x = (filterOneOut design n high c x).map (·.getD x) := by
  unfold filterOne filterOneOut
  cases hd : dtOf x with
  | error e => rfl
  | ok d =>
    simp only [bind, Except.bind]
    by_cases h0 : d = 0
    · rw [if_pos h0, if_pos h0]; rfl
    · rw [if_neg h0, if_neg h0]
      cases high with
      | true =>
        simp only [if_true]
        by_cases hc : c ≤ 0
        · rw [if_pos hc, if_pos hc]; rfl
        · rw [if_neg hc, if_neg hc]
          cases applyFilter design n .highpass [c / (1 / d / 2)] x <;> rfl
      | false =>
        simp only [Bool.false_eq_true, if_false]
        by_cases hc : 1 / d / 2 ≤ c
        · rw [if_pos hc, if_pos hc]; rfl
        · rw [if_neg hc, if_neg hc]
          cases applyFilter design n .lowpass [c / (1 / d / 2)] x <;> rfl

theorem filterTwo_out (design : Design K) (n : Nat) (stop : Bool) (a b : K) (x : Rec K) :
    filterTwo design n stop a b x = (filterTwoOut design n stop a b x).map (·.getD x) := by
  unfold filterTwo filterTwoOut
  cases hd : dtOf x with
  | error e => rfl
  | ok d =>
    simp only [bind, Except.bind]
    by_cases h0 : d = 0
    · rw [if_pos h0, if_pos h0]; rfl
    · rw [if_neg h0, if_neg h0]
      by_cases h1 : 1 / d / 2 * (9999 / 10000) ≤ b
      · rw [if_pos h1, if_pos h1, filterOne_out]
      · rw [if_neg h1, if_neg h1]
        by_cases h2 : a ≤ 1 / ((x.length : K) * d)
        · rw [if_pos h2, if_pos h2, filterOne_out]
        · rw [if_neg h2, if_neg h2]
          cases applyFilter design n (if stop then .bandstop else .bandpass) [a / (1 / d / 2), b / (1 / d / 2)] x <;> rfl

/-- What the filter returns, whether as the same array or as a new one. -/
theorem filterKernel_out (design : Design K) (n : Nat) (ft : FType) (cut : Cut K) (x : Rec K) :
    filterKernel design n ft cut x = (filterOut design n ft cut x).map (·.getD x) := by
  cases ft <;> cases cut <;> simp only [filterKernel, filterOut, Except.map, filterOne_out]
  · split_ifs
    · rfl
    · rw [filterTwo_out]; rfl
  · split_ifs
    · rfl
    · rw [filterTwo_out]; rfl

/-- Construction from accelerations in SI units at address `a`. -/
theorem mkMotion_si (σ : CStore K) (a : Nat) (x : Rec K) (ha : σ[a]? = some x) (h2 : 2 ≤ x.length) :
    ∃ m, mkMotion σ (.two a) .m .accel none = (.ok m, σ) ∧ m.accel = .view a ∧ m.npts = x.length ∧
      dtOf x = .ok m.dt ∧ m.pga = maxAbs (vals x) := by
  have hok : ∃ dt, dtOf x = .ok dt := by
    match x, h2 with
    | p :: q :: x, _ => exact ⟨_, rfl⟩
  obtain ⟨dt, hdt⟩ := hok
  have hread : (Where.view a).read σ = x := by simp [Where.read, ha]
  have hr : readTwo σ (.two a) none = .ok (.view a, dt) := by
    unfold readTwo
    simp only [ha]
    match x, h2, hdt with
    | p :: q :: x, _, hdt => simp only [hdt]; rfl
  unfold mkMotion
  rw [hr]
  simp only [reduceCtorEq, if_false, toSIinPlace, unitFactor, hread, numInt_ok dt x hdt, bind, Except.bind, pure,
    Except.pure, false_and, or_self]
  exact ⟨_, rfl, rfl, rfl, hdt, rfl⟩

theorem mkFresh_addr (σ : CStore K) (x : Rec K) (h2 : 2 ≤ x.length) :
    ∃ m, mkFresh σ x = (.ok m, σ ++ [x]) ∧ m.accel = .view σ.length ∧ m.npts = x.length ∧ dtOf x = .ok m.dt ∧
      m.pga = maxAbs (vals x) :=
  mkMotion_si (σ ++ [x]) σ.length x (by simp) h2

/-- Entering an array in the store changes nothing that can be seen. -/
theorem withAddr_spec (σ : CStore K) (m : Motion K) (hin : ∀ a, m.accel = .view a → a < σ.length) :
    (withAddr σ m).2.1.accel = .view (withAddr σ m).1 ∧
    (withAddr σ m).2.2[(withAddr σ m).1]? = some (m.accel.read σ) ∧
    (∀ b, b < σ.length → (withAddr σ m).2.2[b]? = σ[b]?) ∧
    (withAddr σ m).2.1 = { m with accel := .view (withAddr σ m).1 } := by
  unfold withAddr
  cases h : m.accel with
  | view a =>
    refine ⟨h, ?_, fun b _ => rfl, ?_⟩
    · obtain ⟨v, hv⟩ : ∃ v, σ[a]? = some v := ⟨_, List.getElem?_eq_getElem (hin a h)⟩
      simp [Where.read, hv]
    · cases m; cases h; rfl
  | own d =>
    refine ⟨rfl, ?_, fun b hb => ?_, rfl⟩
    · simp [Where.read]
    · simp only; rw [List.getElem?_append_left hb]

/-- A filtered motion: whenever the filter accepts its arguments, the new motion has the same times and the filtered
acceleration; this motion and all existing arrays show the same data as before. -/
theorem C126_filter (design : Design K) (n : Nat) (ft : FType) (cut : Cut K) (σ : CStore K) (m : Motion K)
    (hin : ∀ a, m.accel = .view a → a < σ.length) (h2 : 2 ≤ (m.accel.read σ).length) :
    (∀ y, filterKernel design n ft cut (m.accel.read σ) = .ok y →
      ∃ m' m₁ τ, filterMotion design n ft cut σ m = (.ok m', m₁, τ) ∧ m'.accel.read τ = y ∧
        times (m'.accel.read τ) = times (m.accel.read σ) ∧ m'.npts = (m.accel.read σ).length ∧
        m'.pga = maxAbs (vals y) ∧ m₁.accel.read τ = m.accel.read σ ∧ m₁.veloc = m.veloc ∧ m₁.displ = m.displ ∧
        ∀ b, b < σ.length → τ[b]? = σ[b]?) ∧
    (∀ e, filterKernel design n ft cut (m.accel.read σ) = .error e →
      (filterMotion design n ft cut σ m).1 = .error e) := by
  obtain ⟨w1, w2, w3, w4⟩ := withAddr_spec σ m hin
  have hread : (withAddr σ m).2.1.accel.read (withAddr σ m).2.2 = m.accel.read σ := by
    rw [w1]; simp [Where.read, w2]
  rw [filterKernel_out]
  unfold filterMotion
  simp only [hread]
  cases hf : filterOut design n ft cut (m.accel.read σ) with
  | error e =>
    refine ⟨fun y hy => by simp [Except.map] at hy, fun e' he => ?_⟩
    simp [Except.map] at he
    rw [he]
  | ok o =>
    refine ⟨?_, fun e he => by simp [Except.map] at he⟩
    intro y hy
    have hy' : filterKernel design n ft cut (m.accel.read σ) = .ok y := by
      rw [filterKernel_out, hf]; exact hy
    obtain ⟨hta, hlen⟩ := C64_axis design n ft cut _ y hy'
    have hy := Except.ok.inj hy
    cases o with
    | none =>
      simp only [Option.getD_none] at hy
      subst hy
      obtain ⟨m', hm, hacc, hnp, hdt, hpga⟩ := mkMotion_si (withAddr σ m).2.2 (withAddr σ m).1 _ w2 h2
      refine ⟨m', _, _, by simp only [hm], ?_, ?_, hnp, hpga, hread, ?_, ?_, w3⟩
      · rw [hacc]; simp [Where.read, w2]
      · rw [hacc]; simp [Where.read, w2]
      · rw [w4]
      · rw [w4]
    | some z =>
      simp only [Option.getD_some] at hy
      subst hy
      obtain ⟨m', hm, hacc, hnp, hdt, hpga⟩ := mkFresh_addr (withAddr σ m).2.2 z (by rw [hlen]; exact h2)
      have hz : m'.accel.read ((withAddr σ m).2.2 ++ [z]) = z := by rw [hacc]; simp [Where.read]
      have hlt : (withAddr σ m).1 < (withAddr σ m).2.2.length := by
        by_contra hn; rw [List.getElem?_eq_none (by omega)] at w2; cases w2
      refine ⟨m', _, _, by simp only [hm]; rfl, hz, by rw [hz, hta], by rw [hnp, hlen], hpga, ?_, ?_, ?_, ?_⟩
      · rw [w1]; simp [Where.read, List.getElem?_append_left hlt, w2]
      · rw [w4]
      · rw [w4]
      · intro b hb
        have : b < (withAddr σ m).2.2.length := by
          have := w3 b hb
          rw [List.getElem?_eq_getElem hb] at this
          exact (List.getElem?_eq_some_iff.1 this).1
        rw [List.getElem?_append_left this, w3 b hb]

/-- The new motion is independent of this one if the filter was really applied: saving it in any unit leaves this
motion's acceleration alone.  Missing: requests which the filter answers with the array passed in, see
`C126_shared_violated`. -/
theorem C126_independent_partial (design : Design K) (n : Nat) (ft : FType) (cut : Cut K) (σ : CStore K) (m : Motion K)
    (hin : ∀ a, m.accel = .view a → a < σ.length) (h2 : 2 ≤ (m.accel.read σ).length) (y : Rec K)
    (hf : filterOut design n ft cut (m.accel.read σ) = .ok (some y)) (unit : MUnit) :
    ∃ m' m₁ τ, filterMotion design n ft cut σ m = (.ok m', m₁, τ) ∧
      m₁.accel.read (saveAccel τ m' unit).2.2 = m.accel.read σ := by
  obtain ⟨w1, w2, w3, w4⟩ := withAddr_spec σ m hin
  have hread : (withAddr σ m).2.1.accel.read (withAddr σ m).2.2 = m.accel.read σ := by
    rw [w1]; simp [Where.read, w2]
  have hy' : filterKernel design n ft cut (m.accel.read σ) = .ok y := by
    rw [filterKernel_out, hf]; rfl
  obtain ⟨hta, hlen⟩ := C64_axis design n ft cut _ y hy'
  obtain ⟨m', hm, hacc, _⟩ := mkFresh_addr (withAddr σ m).2.2 y (by rw [hlen]; exact h2)
  have hlt : (withAddr σ m).1 < (withAddr σ m).2.2.length := by
    by_contra hn; rw [List.getElem?_eq_none (by omega)] at w2; cases w2
  refine ⟨m', (withAddr σ m).2.1, (withAddr σ m).2.2 ++ [y], ?_, ?_⟩
  · unfold filterMotion
    simp only [hread, hf, hm]
  · rw [w1]
    have key : ((withAddr σ m).2.2 ++ [y])[(withAddr σ m).1]? = some (m.accel.read σ) := by
      rw [List.getElem?_append_left hlt, w2]
    cases unit <;> simp only [saveAccel, hacc, Where.scale, Where.read] <;>
      first
        | rw [key]; rfl
        | (rw [List.getElem?_set_ne (by omega), key]; rfl)

/-- Requests that the filter answers by returning the array passed in (high-pass at or below 0, low-pass at or above the
Nyquist frequency) give a motion which shares its acceleration with the original: saving the "filtered" motion in g
divides the accelerations of the original by 9.81 as well. -/
theorem C126_shared_violated (design : Design K) (n : Nat) (c d : K) (σ : CStore K) (m : Motion K)
    (hin : ∀ a, m.accel = .view a → a < σ.length) (h2 : 2 ≤ (m.accel.read σ).length)
    (hd : dtOf (m.accel.read σ) = .ok d) (h0 : d ≠ 0) (ft : FType)
    (hc : (ft = .highpass ∧ c ≤ 0) ∨ (ft = .lowpass ∧ nyquist d ≤ c)) :
    ∃ m' m₁ τ, filterMotion design n ft (.num c) σ m = (.ok m', m₁, τ) ∧
      m₁.accel.read τ = m.accel.read σ ∧
      m₁.accel.read (saveAccel τ m' .g).2.2 = (m.accel.read σ).map fun p => (p.1, p.2 / (981 / 100)) := by
  obtain ⟨w1, w2, w3, w4⟩ := withAddr_spec σ m hin
  have hread : (withAddr σ m).2.1.accel.read (withAddr σ m).2.2 = m.accel.read σ := by
    rw [w1]; simp [Where.read, w2]
  have hf : filterOut design n ft (.num c) (m.accel.read σ) = .ok none := by
    rcases hc with ⟨rfl, hc⟩ | ⟨rfl, hc⟩
    · simp only [filterOut, filterOneOut, hd, bind, Except.bind]
      rw [if_neg h0]; simp only [if_true]; rw [if_pos hc]
    · simp only [filterOut, filterOneOut, hd, bind, Except.bind]
      rw [if_neg h0]; simp only [Bool.false_eq_true, if_false]; rw [if_pos (by rw [nyq_eq]; exact hc)]
  obtain ⟨m', hm, hacc, _⟩ := mkMotion_si (withAddr σ m).2.2 (withAddr σ m).1 _ w2 h2
  have hlt : (withAddr σ m).1 < (withAddr σ m).2.2.length := by
    by_contra hn; rw [List.getElem?_eq_none (by omega)] at w2; cases w2
  refine ⟨m', (withAddr σ m).2.1, (withAddr σ m).2.2, ?_, hread, ?_⟩
  · unfold filterMotion
    simp only [hread, hf, hm]
  · rw [w1]
    simp only [saveAccel, hacc, Where.scale, Where.read]
    rw [List.getElem?_set_self hlt, w2]
    simp only [Option.getD_some, scaleCols]
    apply List.map_congr_left
    intro p _
    rw [mul_one, mul_one_div]

/-! ## Baseline correction -/

/-- A baseline-corrected motion: same times and number of samples; no existing array changes; errors are those of the
correction. -/
theorem C126_baseline [FloorRing K] (design : Design K) (cutoff d : K) (σ : CStore K) (m : Motion K) (hd : d ≠ 0)
    (ht : Uniform d (times (m.accel.read σ))) (h2 : 2 ≤ (m.accel.read σ).length) :
    (∀ y, baselineCorrect design cutoff (m.accel.read σ) = .ok y →
      ∃ m' τ, baselineMotion design cutoff σ m = (.ok m', τ) ∧ m'.accel.read τ = y ∧
        times (m'.accel.read τ) = times (m.accel.read σ) ∧ m'.npts = (m.accel.read σ).length ∧
        (∀ b, b < σ.length → τ[b]? = σ[b]?) ∧ ∀ a, m'.accel = .view a → σ.length ≤ a) ∧
    (∀ e, baselineCorrect design cutoff (m.accel.read σ) = .error e →
      baselineMotion design cutoff σ m = (.error e, σ)) := by
  constructor
  · intro y hy
    obtain ⟨h1, h3⟩ := C106_axis design cutoff d _ y hd ht hy
    obtain ⟨m', hm, hacc, hnp, _⟩ := mkFresh_addr σ y (by rw [h3]; exact h2)
    have hz : m'.accel.read (σ ++ [y]) = y := by rw [hacc]; simp [Where.read]
    refine ⟨m', σ ++ [y], by unfold baselineMotion; rw [hy]; exact hm, hz, by rw [hz, h1], by rw [hnp, h3], ?_, ?_⟩
    · intro b hb; rw [List.getElem?_append_left hb]
    · intro a ha; rw [hacc] at ha; cases ha; exact le_refl _
  · intro e he
    unfold baselineMotion
    rw [he]

end

/-! ## Amplification -/

section
open Complex

theorem interpFrom_pos (x : ℝ) : ∀ (l : List (ℝ × ℝ)) (p : ℝ × ℝ), 0 < p.2 → (∀ q ∈ l, 0 < q.2) → 0 < interpFrom x p l
  | [], p, hp, _ => hp
  | q :: l, p, hp, h => by
    unfold interpFrom
    by_cases h1 : x < q.1
    · rw [if_pos h1]
      by_cases h2 : x ≤ p.1
      · rw [if_pos h2]; exact hp
      · rw [if_neg h2]
        have hq := h q List.mem_cons_self
        have hxp : 0 < x - p.1 := by linarith [not_le.1 h2]
        have hqp : 0 < q.1 - p.1 := by linarith
        have hle : (x - p.1) / (q.1 - p.1) < 1 := by rw [div_lt_one hqp]; linarith
        have hge : 0 < (x - p.1) / (q.1 - p.1) := div_pos hxp hqp
        have e : p.2 + (q.2 - p.2) / (q.1 - p.1) * (x - p.1)
            = p.2 * (1 - (x - p.1) / (q.1 - p.1)) + q.2 * ((x - p.1) / (q.1 - p.1)) := by ring
        rw [e]
        have := mul_pos hp (show 0 < 1 - (x - p.1) / (q.1 - p.1) by linarith)
        have := mul_pos hq hge
        linarith
    · rw [if_neg h1]
      exact interpFrom_pos x l q (h q List.mem_cons_self) fun r hr => h r (List.mem_cons_of_mem _ hr)

theorem npInterp_pos {pts : List (ℝ × ℝ)} {x v : ℝ} (h : npInterp pts x = .ok v) (hp : ∀ q ∈ pts, 0 < q.2) : 0 < v := by
  cases pts with
  | nil => cases h
  | cons p l =>
    have : interpFrom x p l = v := Except.ok.inj h
    rw [← this]
    exact interpFrom_pos x l p (hp p List.mem_cons_self) fun q hq => hp q (List.mem_cons_of_mem _ hq)

theorem extendHigh_mem {fmax : ℝ} {tab t : TfTab} (h : extendHigh fmax tab = .ok t) (hp : ∀ r ∈ tab, 0 < r.2.1) :
    ∀ r ∈ t, 0 < r.2.1 := by
  unfold extendHigh at h
  by_cases h1 : tabMax tab < fmax
  · rw [if_pos h1] at h
    cases hl : tab.getLast? with
    | none => rw [hl] at h; cases h
    | some g =>
      obtain ⟨f, a, p⟩ := g
      rw [hl] at h
      simp only at h
      by_cases hf : f = 0
      · rw [if_pos hf] at h; cases h
      · rw [if_neg hf] at h
        cases h
        intro r hr
        rcases List.mem_append.1 hr with hr | hr
        · exact hp r hr
        · rw [List.mem_singleton] at hr
          subst hr
          exact hp (f, a, p) (List.mem_of_getLast? hl)
  · rw [if_neg h1] at h
    cases h
    exact hp

/-- With an odd number of samples, a transfer function without zeros has none after interpolation either. -/
theorem prepared_ne_zero {x x' : Rec ℝ} {f : List ℝ} {tf : List ℂ} {ds : List ℂ} (hx : x.length % 2 = 1)
    (h : prepareTf x f (.complex tf) true = .ok (x', ds)) (htf : ∀ z ∈ tf, z ≠ 0) (h1 : ds[0]? = some 1) : 0 ∉ ds := by
  obtain ⟨a, p, fi, fi', tab, ss, ha, hf, hnil, hb, hf', hs, hds⟩ := prepareTf_inv h
  simp only [if_true] at hb
  obtain ⟨t, ht, rfl, rfl, rfl⟩ := hb
  obtain ⟨hx2, hn, hh, hfl, hfg, _⟩ := freqInterval_ok hf
  obtain ⟨s1, _, _, s4⟩ := tfSingle_ok hs
  have hlen : ss.length = fi'.half := by rw [s1, hfl]
  have hn2 : 2 ≤ fi'.n := by rw [hn]; exact hx2
  obtain ⟨d1, d2, d3⟩ := tfDouble_get fi'.n fi'.half ss hn2 hh hlen
  have hodd : fi'.n % 2 = 1 := by rw [hn]; exact hx
  -- amplitudes are positive
  have hap : ∀ r ∈ f.zip (a.zip p), 0 < r.2.1 := by
    intro r hr
    have hra : r.2.1 ∈ a := (List.of_mem_zip (List.of_mem_zip hr).2).1
    unfold tfArg at ha
    simp only at ha
    split_ifs at ha
    cases ha
    obtain ⟨z, hz, e⟩ := List.mem_map.1 hra
    rw [← e]; exact norm_pos_iff.2 (htf z hz)
  have htab : ∀ r ∈ extendLow fi'.df t, 0 < r.2.1 := by
    have := extendHigh_mem ht hap
    unfold extendLow
    split_ifs
    · intro r hr
      rcases List.mem_cons.1 hr with rfl | hr
      · exact one_pos
      · exact this r hr
    · exact this
  have hss : ∀ (k : Nat), 0 < k → k < fi'.half → ∃ z, ss[k]? = some z ∧ z ≠ 0 := by
    intro k hk hkh
    obtain ⟨u, q, hu, _, hz⟩ := s4 k _ hk (hfg k hkh) (by intro he; omega)
    refine ⟨_, hz, ?_⟩
    have hpos := npInterp_pos hu (by
      intro r hr
      obtain ⟨s, hs, rfl⟩ := List.mem_map.1 hr
      exact htab s hs)
    exact mul_ne_zero (by exact_mod_cast hpos.ne') (exp_ne_zero _)
  rw [hds]
  intro h0
  obtain ⟨k, hk⟩ := List.mem_iff_getElem?.1 h0
  have hkn : k < fi'.n := by
    rw [← d1]; exact (List.getElem?_eq_some_iff.1 hk).1
  by_cases hkh : k < fi'.half
  · rcases Nat.eq_zero_or_pos k with rfl | hkp
    · rw [hds, hk] at h1; simp at h1
    · rw [d2 k hkh] at hk
      obtain ⟨z, hz, hz0⟩ := hss k hkp hkh
      rw [hz] at hk; exact hz0 (Option.some.inj hk)
  · rw [d3 k (by omega) hkn] at hk
    have hlt : fi'.n - k < fi'.half := by
      rw [hh, if_pos hodd] at hkh ⊢; omega
    obtain ⟨z, hz, hz0⟩ := hss (fi'.n - k) (by omega) hlt
    rw [hz] at hk
    simp at hk
    exact hz0 hk

/-- Both directions of the response of a soil column to a motion with an odd number of samples undo each other. -/
theorem siteResp_inverse (ls : List Lay) (hne : ls ≠ []) (hd : ∀ l ∈ ls, DampedLay l) (x : Rec ℝ) (p q : ℝ × ℝ)
    (rest : Rec ℝ) (hx : x = p :: q :: rest) (hdt : p.1 < q.1) (hodd : x.length % 2 = 1) (b : BoundaryArg)
    (hb : b ≠ .other) (deconv : Bool) :
    ∃ y f tf, linearSiteResp ls x b deconv = .ok (y, f, tf) ∧ y.map Prod.fst = x.map Prod.fst ∧
      linearSiteResp ls y b (!deconv) = .ok (x, f, tf) := by
  have hd0 : ¬q.1 - p.1 = 0 := by intro h0; linarith
  obtain ⟨fi, hfi⟩ : ∃ fi, freqInterval x = .ok fi := by
    rw [hx]; unfold freqInterval; simp only; rw [if_neg hd0]; exact ⟨_, rfl⟩
  obtain ⟨hx2, hn, hh, hfl, hfg, hfm, p', q', r', hxx, _, hdf'⟩ := freqInterval_ok hfi
  have hdf : 0 < fi.df := by
    rw [hx] at hxx
    cases hxx
    rw [hdf']
    have : (0 : ℝ) < x.length := by exact_mod_cast (by omega : 0 < x.length)
    have h1 : 0 < q.1 - p.1 := by linarith
    positivity
  have hhalf : 2 ≤ fi.half := by rw [hh]; split_ifs <;> omega
  obtain ⟨hgl, hgg⟩ := siteGrid fi hdf hhalf hfm
  have hfreq : (linearTf ls (fi.df * (105 / 100)) (fi.fmax * (105 / 100))).map (fun r => r.1)
      = tfFreqs (fi.df * (105 / 100)) (fi.fmax * (105 / 100)) := by
    unfold linearTf; rw [List.map_map]; exact List.map_id _
  have hll : (linearTf ls (fi.df * (105 / 100)) (fi.fmax * (105 / 100))).length = fi.half := by
    unfold linearTf; simp [hgl]
  have hfpos : ∀ g ∈ tfFreqs (fi.df * (105 / 100)) (fi.fmax * (105 / 100)), 0 < g := by
    intro g hg
    obtain ⟨k, hk⟩ := List.mem_iff_getElem?.1 hg
    have hkh : k < fi.half := by rw [← hgl]; exact (List.getElem?_eq_some_iff.1 hk).1
    rw [hgg k hkh] at hk
    rw [← Option.some.inj hk]
    positivity
  have main : ∀ (s : ℂ × ℂ × ℂ → ℂ), (∀ w, 0 < w → s (tfRo w ls, tfIn w ls, tfBh w ls) ≠ 0) →
      ∃ y, amplifyMotion x (tfFreqs (fi.df * (105 / 100)) (fi.fmax * (105 / 100)))
          (.complex ((linearTf ls (fi.df * (105 / 100)) (fi.fmax * (105 / 100))).map fun r => s r.2.1)) none true deconv = .ok y ∧
        y.map Prod.fst = x.map Prod.fst ∧
        amplifyMotion y (tfFreqs (fi.df * (105 / 100)) (fi.fmax * (105 / 100)))
          (.complex ((linearTf ls (fi.df * (105 / 100)) (fi.fmax * (105 / 100))).map fun r => s r.2.1)) none true (!deconv) = .ok x := by
    intro s hs
    set tf := (linearTf ls (fi.df * (105 / 100)) (fi.fmax * (105 / 100))).map fun r => s r.2.1 with htf
    have hnz : ∀ z ∈ tf, z ≠ 0 := by
      intro z hz
      rw [htf] at hz
      obtain ⟨r, hr, rfl⟩ := List.mem_map.1 hz
      unfold linearTf at hr
      obtain ⟨g, hg, rfl⟩ := List.mem_map.1 hr
      exact hs _ (by have := hfpos g hg; positivity)
    obtain ⟨ds, hp, hd1⟩ := siteResp_prepare x p q rest hx hdt fi hfi tf (by rw [htf, List.length_map, hll])
    have h0 := prepared_ne_zero hodd hp hnz hd1
    have hok := C29_no_shape_error (taper := none) (fun g hg => by cases hg) hp
    obtain ⟨y, hy⟩ : ∃ y, amplifyMotion x (tfFreqs (fi.df * (105 / 100)) (fi.fmax * (105 / 100))) (.complex tf) none true
        deconv = .ok y := by
      cases deconv with
      | true => exact hok.2.1 h0
      | false => exact hok.1
    have hfst : y.map Prod.fst = x.map Prod.fst := by
      obtain ⟨x2, ds2, hp2, _, hf2⟩ := amplifyMotion_inv hy
      rw [hp] at hp2
      cases hp2
      exact hf2
    have hpy := prepareTf_again hp hfst
    have hfin : amplifyMotion y (tfFreqs (fi.df * (105 / 100)) (fi.fmax * (105 / 100))) (.complex tf) none true true ≠
        .error .nonFinite := by
      obtain ⟨z, hz⟩ := (C29_no_shape_error (taper := none) (fun g hg => by cases hg) hpy).2.1 h0
      rw [hz]; simp
    obtain ⟨x', _, hx', _, hr⟩ := C30_inverse hy hfin
    rw [hx' rfl] at hr
    exact ⟨y, hy, hfst, hr⟩
  have hnz := fun w (hw : 0 < w) => C79_nonzero w hw ls hne hd
  cases b with
  | other => exact absurd rfl hb
  | elastic =>
    obtain ⟨y, h1, h2, h3⟩ := main (fun t => t.1) (fun w hw => (hnz w hw).1)
    have e1 : linearSiteResp ls x .elastic deconv = .ok (y, tfFreqs (fi.df * (105 / 100)) (fi.fmax * (105 / 100)),
        (linearTf ls (fi.df * (105 / 100)) (fi.fmax * (105 / 100))).map fun r => r.2.1.1) := by
      unfold linearSiteResp
      rw [hfi]
      simp only [bind, Except.bind, hfreq, h1, pure, Except.pure]
    refine ⟨y, _, _, e1, h2, ?_⟩
    unfold linearSiteResp
    rw [freqInterval_congr h2, hfi]
    simp only [bind, Except.bind, hfreq, h3, pure, Except.pure]
  | rigid =>
    obtain ⟨y, h1, h2, h3⟩ := main (fun t => t.2.2) (fun w hw => (hnz w hw).2.2)
    have e1 : linearSiteResp ls x .rigid deconv = .ok (y, tfFreqs (fi.df * (105 / 100)) (fi.fmax * (105 / 100)),
        (linearTf ls (fi.df * (105 / 100)) (fi.fmax * (105 / 100))).map fun r => r.2.1.2.2) := by
      unfold linearSiteResp
      rw [hfi]
      simp only [bind, Except.bind, hfreq, h1, pure, Except.pure]
    refine ⟨y, _, _, e1, h2, ?_⟩
    unfold linearSiteResp
    rw [freqInterval_congr h2, hfi]
    simp only [bind, Except.bind, hfreq, h3, pure, Except.pure]

theorem valid5_damped {rows : List (Row ℝ)} (h : Valid5 rows) : ∀ l ∈ rows.map rowLay, DampedLay l := by
  intro l hl
  obtain ⟨r, hr, rfl⟩ := List.mem_map.1 hl
  obtain ⟨h1, h2, h3⟩ := h.pos r hr
  exact ⟨h.thk_nonneg r hr, h1, h3, h2⟩

theorem freqInterval_inc {x : Rec ℝ} {p q : ℝ × ℝ} {rest : Rec ℝ} (hx : x = p :: q :: rest) (hdt : p.1 < q.1) :
    ∃ fi, freqInterval x = .ok fi := by
  have hd0 : ¬q.1 - p.1 = 0 := by intro h0; linarith
  rw [hx]; unfold freqInterval; simp only; rw [if_neg hd0]; exact ⟨_, rfl⟩

/-- `deconvolve` undoes `amplify` and `amplify` undoes `deconvolve`: for every valid profile, boundary condition and
motion with an odd number of samples at increasing times, both succeed and give back the acceleration sample by sample;
no existing array changes.  Missing: an even number of samples, where the component at the Nyquist frequency is lost if
the transfer function is imaginary there; and other boundary names (`C126_rejects`). -/
theorem C126_roundtrip_partial (rows : List (Row ℝ)) (hv : Valid5 rows) (σ : CStore ℝ) (m : Motion ℝ) (p q : ℝ × ℝ) (rest : Rec ℝ)
    (hx : m.accel.read σ = p :: q :: rest) (hdt : p.1 < q.1) (hodd : (m.accel.read σ).length % 2 = 1) (b : BoundaryArg)
    (hb : b ≠ .other) (deconv : Bool) :
    ∃ m₁ τ₁ m₂ τ₂, siteMotion (some rows) b deconv σ m = (.ok m₁, τ₁) ∧
      siteMotion (some rows) b (!deconv) τ₁ m₁ = (.ok m₂, τ₂) ∧
      times (m₁.accel.read τ₁) = times (m.accel.read σ) ∧ m₂.accel.read τ₂ = m.accel.read σ ∧
      m₂.npts = (m.accel.read σ).length ∧ m₂.pga = maxAbs (vals (m.accel.read σ)) ∧
      ∀ c, c < σ.length → τ₂[c]? = σ[c]? := by
  have hck := (checkVsFormat_five_ok rows).2 hv
  obtain ⟨fi, hfi⟩ := freqInterval_inc hx hdt
  obtain ⟨y, f, tf, h1, h2, h3⟩ := siteResp_inverse (rows.map rowLay) (by simpa using hv.nonempty) (valid5_damped hv)
    (m.accel.read σ) p q rest hx hdt hodd b hb deconv
  have hlen : y.length = (m.accel.read σ).length := by
    have := congrArg List.length h2
    simpa using this
  have hx2 : 2 ≤ (m.accel.read σ).length := by rw [hx]; simp
  obtain ⟨m₁, hm1, ha1, hn1, _⟩ := mkFresh_addr σ y (by rw [hlen]; exact hx2)
  have hr1 : m₁.accel.read (σ ++ [y]) = y := by rw [ha1]; simp [Where.read]
  obtain ⟨m₂, hm2, ha2, hn2, _, hp2⟩ := mkFresh_addr (σ ++ [y]) (m.accel.read σ) hx2
  refine ⟨m₁, σ ++ [y], m₂, σ ++ [y] ++ [m.accel.read σ], ?_, ?_, ?_, ?_, hn2, hp2, ?_⟩
  · unfold siteMotion
    simp only [hfi, hck, h1, bind, Except.bind, hm1]
  · unfold siteMotion
    simp only [hr1, freqInterval_congr h2, hfi, hck, h3, bind, Except.bind, hm2]
  · rw [hr1]; exact h2
  · rw [ha2]; simp [Where.read]
  · intro c hc
    rw [List.getElem?_append_left (by simp; omega), List.getElem?_append_left hc]

/-- Amplification through any valid profile works for every motion with two or more samples at increasing times: same
times, same mean acceleration, no existing array changes. -/
theorem C126_amplify (rows : List (Row ℝ)) (hv : Valid5 rows) (σ : CStore ℝ) (m : Motion ℝ) (p q : ℝ × ℝ) (rest : Rec ℝ)
    (hx : m.accel.read σ = p :: q :: rest) (hdt : p.1 < q.1) (b : BoundaryArg) (hb : b ≠ .other) :
    ∃ m' τ, siteMotion (some rows) b false σ m = (.ok m', τ) ∧ times (m'.accel.read τ) = times (m.accel.read σ) ∧
      (vals (m'.accel.read τ)).sum = (vals (m.accel.read σ)).sum ∧ ∀ c, c < σ.length → τ[c]? = σ[c]? := by
  have hck := (checkVsFormat_five_ok rows).2 hv
  obtain ⟨fi, hfi⟩ := freqInterval_inc hx hdt
  obtain ⟨y, f, tf, h1, h2, h3, _⟩ := C82_site_response (rows.map rowLay) (m.accel.read σ) p q rest hx hdt b hb
  have hlen : y.length = (m.accel.read σ).length := by
    have := congrArg List.length h2
    simpa using this
  obtain ⟨m', hm, ha, _⟩ := mkFresh_addr σ y (by rw [hlen, hx]; simp)
  have hr : m'.accel.read (σ ++ [y]) = y := by rw [ha]; simp [Where.read]
  refine ⟨m', σ ++ [y], ?_, ?_, ?_, ?_⟩
  · unfold siteMotion
    simp only [hfi, hck, h1, bind, Except.bind, hm]
  · rw [hr]; exact h2
  · rw [hr]; exact h3
  · intro c hc; rw [List.getElem?_append_left hc]

/-- Rejected arguments: anything but a profile (TypeError), an unknown boundary (ValueError); for `amplify_by_tf`
anything but a spectrum (TypeError).  Memory is unchanged. -/
theorem C126_rejects (σ : CStore ℝ) (m : Motion ℝ) (d : Bool) :
    (∀ b, siteMotion none b d σ m = (.error .typeError, σ)) ∧
    (∀ rows, Valid5 rows → ∀ p q rest, m.accel.read σ = p :: q :: rest → p.1 < q.1 →
      siteMotion (some rows) .other d σ m = (.error .valueError, σ)) ∧
    (∀ taper extrap, tfMotion none taper extrap d σ m = (.error .typeError, σ)) := by
  refine ⟨fun b => rfl, ?_, fun t e => rfl⟩
  intro rows hv p q rest hx hdt
  have hck := (checkVsFormat_five_ok rows).2 hv
  obtain ⟨fi, hfi⟩ := freqInterval_inc hx hdt
  unfold siteMotion
  simp only [hfi, hck, C82_other_boundary (rows.map rowLay) _ d fi hfi, bind, Except.bind]

theorem prepareTf_times {x x' : Rec ℝ} (h : x.map Prod.fst = x'.map Prod.fst) (f : List ℝ) (tf : TfArg) :
    (∃ e, prepareTf x f tf true = .error e ∧ prepareTf x' f tf true = .error e) ∨
    ∃ ds, prepareTf x f tf true = .ok (x, ds) ∧ prepareTf x' f tf true = .ok (x', ds) := by
  unfold prepareTf
  rw [freqInterval_congr h]
  cases tfArg f.length tf with
  | error e => exact Or.inl ⟨e, rfl, rfl⟩
  | ok ap =>
    cases freqInterval x' with
    | error e => exact Or.inl ⟨e, rfl, rfl⟩
    | ok fi =>
      by_cases hf : f = []
      · left
        refine ⟨.valueError, ?_, ?_⟩ <;> simp [hf, bind, Except.bind]
      · simp only [bind, Except.bind, if_neg hf, if_true]
        cases extendHigh fi.fmax (f.zip (ap.1.zip ap.2)) with
        | error e => exact Or.inl ⟨e, rfl, rfl⟩
        | ok tab =>
          simp only [pure, Except.pure]
          cases tfSingle (extendLow fi.df tab) fi.n fi.f with
          | error e => exact Or.inl ⟨e, rfl, rfl⟩
          | ok ss => exact Or.inr ⟨_, rfl, rfl⟩

theorem amplifyMotion_tapered {x x' : Rec ℝ} (h : x.map Prod.fst = x'.map Prod.fst) (f : List ℝ) (tf : TfArg)
    (g : List ℝ → List ℝ) (d : Bool) (ha : x'.map Prod.snd = g (x.map Prod.snd)) :
    amplifyMotion x f tf (some g) true d = amplifyMotion x' f tf none true d := by
  unfold amplifyMotion
  rcases prepareTf_times h f tf with ⟨e, h1, h2⟩ | ⟨ds, h1, h2⟩
  · rw [h1, h2]
    simp only [bind, Except.bind]
  · rw [h1, h2]
    simp only [bind, Except.bind, tapered]
    rw [ha, h]

/-- With extrapolation, amplification of a tapered motion is amplification of the motion whose acceleration is already
tapered: the taper acts on the acceleration and on nothing else. -/
theorem C126_tf_taper (f : List ℝ) (s : List ℂ) (g : List ℝ → List ℝ) (d : Bool) (σ : CStore ℝ) (m m' : Motion ℝ)
    (ht : times (m'.accel.read σ) = times (m.accel.read σ))
    (ha : (m'.accel.read σ).map Prod.snd = g ((m.accel.read σ).map Prod.snd)) :
    tfMotion (some (f, s)) (some g) true d σ m = tfMotion (some (f, s)) none true d σ m' := by
  have e := amplifyMotion_tapered (x := m.accel.read σ) (x' := m'.accel.read σ) ht.symm f (.complex s) g d ha
  unfold tfMotion
  simp only [e]

/-- Amplification by a transfer function and deconvolution by the same one: with extrapolation and without taper the
acceleration is recovered, provided the second step is finite; no existing array changes. -/
theorem C126_tf_roundtrip (f : List ℝ) (s : List ℂ) (σ τ : CStore ℝ) (m m₁ : Motion ℝ)
    (h2 : 2 ≤ (m.accel.read σ).length)
    (h : tfMotion (some (f, s)) none true false σ m = (.ok m₁, τ))
    (hfin : (tfMotion (some (f, s)) none true true τ m₁).1 ≠ .error .nonFinite) :
    ∃ m₂ τ₂, tfMotion (some (f, s)) none true true τ m₁ = (.ok m₂, τ₂) ∧ m₂.accel.read τ₂ = m.accel.read σ ∧
      times (m₁.accel.read τ) = times (m.accel.read σ) ∧ ∀ c, c < σ.length → τ₂[c]? = σ[c]? := by
  unfold tfMotion at h
  simp only at h
  cases hy : amplifyMotion (m.accel.read σ) f (.complex s) none true false with
  | error e => rw [hy] at h; cases h
  | ok y =>
    rw [hy] at h
    simp only at h
    have hfst : y.map Prod.fst = (m.accel.read σ).map Prod.fst := by
      obtain ⟨x', _, _, hx', hf, _⟩ := C29_amplify_real (taper := none) (fun g hg => by cases hg) hy
      rw [hf, hx' rfl]
    have hlen : y.length = (m.accel.read σ).length := by
      have := congrArg List.length hfst
      simpa using this
    obtain ⟨m', hm, ha, _⟩ := mkFresh_addr σ y (by rw [hlen]; exact h2)
    rw [hm] at h
    cases h
    have hr : m₁.accel.read (σ ++ [y]) = y := by rw [ha]; simp [Where.read]
    have hfin' : amplifyMotion y f (.complex s) none true true ≠ .error .nonFinite := by
      intro he
      apply hfin
      unfold tfMotion
      simp only [hr, he]
    have hback := C30_roundtrip hy hfin'
    obtain ⟨m₂, hm2, ha2, _⟩ := mkFresh_addr (σ ++ [y]) (m.accel.read σ) h2
    refine ⟨m₂, σ ++ [y] ++ [m.accel.read σ], ?_, ?_, ?_, ?_⟩
    · unfold tfMotion
      simp only [hr, hback, hm2]
    · rw [ha2]; simp [Where.read]
    · rw [hr]; exact hfst
    · intro c hc
      rw [List.getElem?_append_left (by simp; omega), List.getElem?_append_left hc]

end

-- a motion of three samples high-passed at 0 Hz
example : ((filterMotion (fun _ _ _ => .ok []) 4 .highpass (.num 0) [[(0, 981), (1, 0), (2, -1962)]]
    ⟨.view 0, .own [], .own [], 1, 3, 1962, 0, 0⟩).1.toOption.map fun m' => (saveAccel [[(0, (981 : ℚ)), (1, 0), (2, -1962)]] m' .g).2.2)
    = some [[(0, 100), (1, 0), (2, -200)]] := by decide +kernel

end Verif
