import Verif.Props.Filter
import Mathlib.RingTheory.PowerSeries.Basic
import Mathlib.RingTheory.PowerSeries.Inverse
import Mathlib.Analysis.SpecialFunctions.Trigonometric.Basic
import Mathlib.Data.List.GetD

/-!
C103: what the cascade of sections computes (z-transform).  C169: the frequency response of the filters, in Hz.
-/

set_option linter.unusedSectionVars false
set_option linter.unusedVariables false

namespace Verif

open Spec (times vals nyquist)

namespace Spec

section
variable {K : Type} [_root_.Field K] [LinearOrder K]

/-- The z-transform of a signal (as a series in 1/z). -/
noncomputable def series (x : List K) : PowerSeries K := PowerSeries.mk fun k => x.getD k 0

/-- Numerator and denominator of a section. -/
noncomputable def numS (c : Sect K) : PowerSeries K :=
  PowerSeries.C c.b0 + PowerSeries.C c.b1 * PowerSeries.X + PowerSeries.C c.b2 * PowerSeries.X ^ 2
noncomputable def denS (c : Sect K) : PowerSeries K :=
  1 + PowerSeries.C c.a1 * PowerSeries.X + PowerSeries.C c.a2 * PowerSeries.X ^ 2

end

/-- The response of a section to vibrations `w ^ k`, with `u = 1 / w`. -/
noncomputable def sectResp (c : Sect ℝ) (u : ℂ) : ℂ := (c.b0 + c.b1 * u + c.b2 * u ^ 2) / (1 + c.a1 * u + c.a2 * u ^ 2)

/-- The response of a cascade. -/
noncomputable def sosResp (sos : List (Sect ℝ)) (u : ℂ) : ℂ := (sos.map fun c => sectResp c u).prod

/-- `1 / w` for vibrations of frequency `f` sampled with time step `d`. -/
noncomputable def unitDelay (f d : ℝ) : ℂ := Complex.exp (-(2 * Real.pi * f * d : ℝ) * Complex.I)

/-- The samples of a vibration with complex amplitude `A`: real part of `A w ^ k`. -/
noncomputable def vibration (A w : ℂ) (n : Nat) : List ℝ := (List.range n).map fun k => (A * w ^ k).re

/-- A cascade of sections that are in given states at the start. -/
noncomputable def cascade : List (Sect ℝ × (ℝ × ℝ)) → List ℝ → List ℝ
  | [], x => x
  | (c, z) :: rest, x => cascade rest (sectFrom c z x)

/-- What `scipy.signal.butter` computes: the digital Butterworth filters of order `N` for cut-off frequencies in units of the
Nyquist frequency. -/
structure IsButter (design : Design ℝ) (N : Nat) : Prop where
  low : ∀ c : ℝ, 0 < c → c < 1 → ∃ sos, design N .lowpass [c] = .ok sos ∧
    ∀ v, 0 ≤ v → v < 1 → ‖sosResp sos (unitDelay v (1 / 2))‖ ^ 2 =
      1 / (1 + (Real.tan (Real.pi * v / 2) / Real.tan (Real.pi * c / 2)) ^ (2 * N))
  high : ∀ c : ℝ, 0 < c → c < 1 → ∃ sos, design N .highpass [c] = .ok sos ∧
    ∀ v, 0 < v → v < 1 → ‖sosResp sos (unitDelay v (1 / 2))‖ ^ 2 =
      1 / (1 + (Real.tan (Real.pi * c / 2) / Real.tan (Real.pi * v / 2)) ^ (2 * N))
  band : ∀ a b : ℝ, 0 < a → a < b → b < 1 → ∃ sos, design N .bandpass [a, b] = .ok sos ∧
    ∀ v, 0 < v → v < 1 → ‖sosResp sos (unitDelay v (1 / 2))‖ ^ 2 =
      1 / (1 + ((Real.tan (Real.pi * v / 2) ^ 2 - Real.tan (Real.pi * a / 2) * Real.tan (Real.pi * b / 2)) /
        ((Real.tan (Real.pi * b / 2) - Real.tan (Real.pi * a / 2)) * Real.tan (Real.pi * v / 2))) ^ (2 * N))
  stop : ∀ a b : ℝ, 0 < a → a < b → b < 1 → ∃ sos, design N .bandstop [a, b] = .ok sos ∧
    ∀ v, 0 < v → v < 1 → ‖sosResp sos (unitDelay v (1 / 2))‖ ^ 2 =
      1 - 1 / (1 + ((Real.tan (Real.pi * v / 2) ^ 2 - Real.tan (Real.pi * a / 2) * Real.tan (Real.pi * b / 2)) /
        ((Real.tan (Real.pi * b / 2) - Real.tan (Real.pi * a / 2)) * Real.tan (Real.pi * v / 2))) ^ (2 * N))

end Spec

open Spec (series numS denS sectResp sosResp unitDelay vibration cascade IsButter)

/-! ## C103 -/

section
variable {K : Type} [Field K] [LinearOrder K]

theorem series_cons (a : K) (x : List K) : series (a :: x) = PowerSeries.C a + PowerSeries.X * series x := by
  ext k
  cases k with
  | zero => simp [series]
  | succ k => simp [series, PowerSeries.coeff_C, mul_comm PowerSeries.X, PowerSeries.coeff_succ_mul_X]

theorem sect_series (c : Sect K) (x : List K) : ∀ z : K × K,
    (PowerSeries.X : PowerSeries K) ^ x.length ∣ series (sectFrom c z x) * denS c -
      (series x * numS c + PowerSeries.C z.1 + PowerSeries.C z.2 * PowerSeries.X) := by
  induction x with
  | nil => intro z; simp
  | cons a x ih =>
    intro z
    unfold sectFrom
    dsimp only
    obtain ⟨q, hq⟩ := ih (c.b1 * a - c.a1 * (c.b0 * a + z.1) + z.2, c.b2 * a - c.a2 * (c.b0 * a + z.1))
    refine ⟨q, ?_⟩
    rw [series_cons, series_cons, List.length_cons, pow_succ']
    rw [mul_assoc, ← hq]
    unfold denS numS
    simp only [map_sub, map_add, map_mul]
    ring

theorem sos_series (sos : List (Sect K)) : ∀ x : List K,
    (PowerSeries.X : PowerSeries K) ^ x.length ∣ series (sosfilt sos x) * (sos.map denS).prod - series x * (sos.map numS).prod := by
  induction sos with
  | nil => intro x; simp [sosfilt]
  | cons c sos ih =>
    intro x
    have e : sosfilt (c :: sos) x = sosfilt sos (sectFrom c (0, 0) x) := rfl
    obtain ⟨p, hp⟩ := sect_series c x (0, 0)
    obtain ⟨q, hq⟩ := ih (sectFrom c (0, 0) x)
    rw [sectFrom_length] at hq
    refine ⟨q * denS c + p * (sos.map numS).prod, ?_⟩
    rw [e]
    simp only [List.map_cons, List.prod_cons, map_zero, add_zero, zero_mul] at hp ⊢
    linear_combination denS c * hq + (sos.map numS).prod * hp

theorem den_unit (sos : List (Sect K)) : ∃ r : PowerSeries K, (sos.map denS).prod * r = 1 := by
  have hu : IsUnit (sos.map (denS : Sect K → PowerSeries K)).prod := by
    rw [PowerSeries.isUnit_iff_constantCoeff]
    rw [map_list_prod]
    have : (sos.map denS).map (PowerSeries.constantCoeff (R := K)) = sos.map fun _ => (1 : K) := by
      rw [List.map_map]
      refine List.map_congr_left fun c _ => ?_
      simp [denS]
    rw [this]
    simp
  obtain ⟨u, hu⟩ := hu
  exact ⟨↑u⁻¹, by rw [← hu]; simp⟩

/-- The answer of a cascade of sections, exactly: it is the signal of the same length whose z-transform is that of the record times
the product of the rational functions of the sections, up to the last sample. -/
theorem C103_transfer (sos : List (Sect K)) (x y : List K) :
    y = sosfilt sos x ↔ y.length = x.length ∧
      (PowerSeries.X : PowerSeries K) ^ x.length ∣ series y * (sos.map denS).prod - series x * (sos.map numS).prod := by
  constructor
  · rintro rfl
    exact ⟨sosfilt_length sos x, sos_series sos x⟩
  · rintro ⟨hl, hd⟩
    obtain ⟨r, hr⟩ := den_unit sos
    have h1 : (PowerSeries.X : PowerSeries K) ^ x.length ∣ series y - series (sosfilt sos x) := by
      have h2 := (hd.sub (sos_series sos x)).mul_right r
      have e : (series y * (sos.map denS).prod - series x * (sos.map numS).prod -
          (series (sosfilt sos x) * (sos.map denS).prod - series x * (sos.map numS).prod)) * r =
          series y - series (sosfilt sos x) := by
        linear_combination (series y - series (sosfilt sos x)) * hr
      rwa [e] at h2
    rw [PowerSeries.X_pow_dvd_iff] at h1
    refine List.ext_getElem (by rw [hl, sosfilt_length]) fun k hk hk' => ?_
    have := h1 k (by omega)
    rw [map_sub, series, series, PowerSeries.coeff_mk, PowerSeries.coeff_mk, sub_eq_zero] at this
    rw [List.getD_eq_getElem _ _ hk, List.getD_eq_getElem _ _ hk'] at this
    exact this

end

/-! ## C169: responses -/

theorem vibration_succ (A w : ℂ) (n : Nat) : vibration A w (n + 1) = A.re :: vibration (A * w) w n := by
  unfold vibration
  rw [List.range_succ_eq_map, List.map_cons, List.map_map]
  simp only [pow_zero, mul_one, List.cons.injEq, true_and]
  refine List.map_congr_left fun k _ => ?_
  simp only [Function.comp, pow_succ']
  ring_nf

/-- A section that is in the right state answers a vibration by a vibration with the amplitude multiplied by the response. -/
theorem sect_stationary (c : Sect ℝ) (u w : ℂ) (hw : u * w = 1) (hd : 1 + c.a1 * u + c.a2 * u ^ 2 ≠ 0) (n : Nat) : ∀ A : ℂ,
    sectFrom c (((sectResp c u - c.b0) * A).re, ((c.b2 - c.a2 * sectResp c u) * u * A).re) (vibration A w n) =
      vibration (sectResp c u * A) w n := by
  have hH : sectResp c u * (1 + c.a1 * u + c.a2 * u ^ 2) = c.b0 + c.b1 * u + c.b2 * u ^ 2 := div_mul_cancel₀ _ hd
  induction n with
  | zero => intro A; rfl
  | succ n ih =>
    intro A
    have ere : ∀ (r : ℝ) (z : ℂ), r * z.re = ((r : ℂ) * z).re := fun r z => by simp
    have e0 : c.b0 * A.re + ((sectResp c u - c.b0) * A).re = (sectResp c u * A).re := by
      rw [ere, ← Complex.add_re]; congr 1; ring
    have e1 : c.b1 * A.re - c.a1 * (sectResp c u * A).re + ((c.b2 - c.a2 * sectResp c u) * u * A).re =
        ((sectResp c u - c.b0) * (A * w)).re := by
      rw [ere, ere, ← Complex.sub_re, ← Complex.add_re]
      congr 1
      linear_combination (-(A * w)) * hH + (c.b1 * A - c.a1 * sectResp c u * A + (c.b2 - c.a2 * sectResp c u) * A * u) * (-hw)
    have e2 : c.b2 * A.re - c.a2 * (sectResp c u * A).re = ((c.b2 - c.a2 * sectResp c u) * u * (A * w)).re := by
      rw [ere, ere, ← Complex.sub_re]
      congr 1
      linear_combination (-(c.b2 - c.a2 * sectResp c u) * A) * hw
    rw [vibration_succ, vibration_succ]
    unfold sectFrom
    dsimp only
    rw [e0, e1, e2, ih (A * w)]
    rw [mul_assoc]

/-- The filters answer vibrations by vibrations of the same frequency, multiplied by the response, if the sections are in the
right states at the start (from rest, the free vibration of the sections is added: `C169_from_rest`). -/
theorem C169_stationary (u w : ℂ) (hw : u * w = 1) (n : Nat) : ∀ (sos : List (Sect ℝ)) (A : ℂ),
    (∀ c ∈ sos, 1 + (c.a1 : ℂ) * u + c.a2 * u ^ 2 ≠ 0) →
    ∃ zs : List (ℝ × ℝ), zs.length = sos.length ∧ cascade (sos.zip zs) (vibration A w n) = vibration (sosResp sos u * A) w n := by
  intro sos
  induction sos with
  | nil => intro A _; exact ⟨[], rfl, by simp [cascade, sosResp]⟩
  | cons c sos ih =>
    intro A hd
    obtain ⟨zs, hl, hz⟩ := ih (sectResp c u * A) fun c' hc => hd c' (by simp [hc])
    refine ⟨(((sectResp c u - c.b0) * A).re, ((c.b2 - c.a2 * sectResp c u) * u * A).re) :: zs, by simp [hl], ?_⟩
    · rw [List.zip_cons_cons]
      unfold cascade
      rw [sect_stationary c u w hw (hd c (by simp)) n A, hz]
      congr 1
      simp only [sosResp, List.map_cons, List.prod_cons]
      ring

theorem sectFrom_add (c : Sect ℝ) : ∀ (x y : List ℝ) (z z' : ℝ × ℝ), x.length = y.length →
    sectFrom c (z.1 + z'.1, z.2 + z'.2) (List.zipWith (· + ·) x y) = List.zipWith (· + ·) (sectFrom c z x) (sectFrom c z' y)
  | [], [], z, z', _ => rfl
  | a :: x, b :: y, z, z', h => by
    simp only [List.zipWith_cons_cons, sectFrom]
    rw [← sectFrom_add c x y _ _ (by simpa using h)]
    congr 1
    · ring
    · congr 1
      simp only [Prod.mk.injEq]
      constructor <;> ring

theorem cascade_length : ∀ (s : List (Sect ℝ × (ℝ × ℝ))) (x : List ℝ), (cascade s x).length = x.length
  | [], _ => rfl
  | (c, z) :: s, x => by rw [cascade, cascade_length s, sectFrom_length]

/-- The answer from given states is the answer from rest plus the free vibration of the sections from these states. -/
theorem C169_from_rest : ∀ (sos : List (Sect ℝ)) (zs : List (ℝ × ℝ)) (x y : List ℝ), zs.length = sos.length → x.length = y.length →
    cascade (sos.zip zs) (List.zipWith (· + ·) x y) = List.zipWith (· + ·) (sosfilt sos x) (cascade (sos.zip zs) y)
  | [], [], x, y, _, _ => rfl
  | c :: sos, z :: zs, x, y, hl, hxy => by
    rw [List.zip_cons_cons]
    unfold cascade
    have h1 := sectFrom_add c x y (0, 0) z hxy
    simp only [zero_add] at h1
    rw [show z = (z.1, z.2) from rfl, h1, C169_from_rest sos zs _ _ (by simpa using hl) (by rw [sectFrom_length, sectFrom_length, hxy])]
    rfl

theorem unit_delay_scaled (f d : ℝ) (hd : 0 < d) : unitDelay (f / nyquist d) (1 / 2) = unitDelay f d := by
  unfold unitDelay nyquist
  congr 3
  field_simp

theorem angle_scaled (f d : ℝ) (hd : 0 < d) : Real.pi * (f / nyquist d) / 2 = Real.pi * f * d := by
  unfold nyquist
  field_simp

theorem scaled_lt (f d : ℝ) (hd : 0 < d) : f / nyquist d < 1 ↔ f < nyquist d := by
  have : 0 < nyquist d := by unfold nyquist; positivity
  rw [div_lt_one this]

theorem tan_pos_of (f d : ℝ) (hd : 0 < d) (h0 : 0 < f) (h : f < nyquist d) : 0 < Real.tan (Real.pi * f * d) := by
  apply Real.tan_pos_of_pos_of_lt_pi_div_two
  · have := Real.pi_pos; positivity
  · unfold nyquist at h
    rw [lt_div_iff₀ (by positivity)] at h
    nlinarith [Real.pi_pos]

theorem band_ratio (N : Nat) (hN : 0 < N) (d : ℝ) (hd : 0 < d) (a b : ℝ) (ha : 0 < a) (hab : a < b) (hb : b < nyquist d) (f : ℝ)
    (hf : 0 < f) (hfn : f < nyquist d) :
    (f = a ∨ f = b → ((Real.tan (Real.pi * f * d) ^ 2 - Real.tan (Real.pi * a * d) * Real.tan (Real.pi * b * d)) /
        ((Real.tan (Real.pi * b * d) - Real.tan (Real.pi * a * d)) * Real.tan (Real.pi * f * d))) ^ (2 * N) = 1) ∧
    (((Real.tan (Real.pi * f * d) ^ 2 - Real.tan (Real.pi * a * d) * Real.tan (Real.pi * b * d)) /
        ((Real.tan (Real.pi * b * d) - Real.tan (Real.pi * a * d)) * Real.tan (Real.pi * f * d))) ^ (2 * N) < 1 ↔ a < f ∧ f < b) := by
  have hmono : ∀ g h : ℝ, 0 < g → 0 < h → g < nyquist d → h < nyquist d →
      (Real.tan (Real.pi * g * d) < Real.tan (Real.pi * h * d) ↔ g < h) := by
    have key : ∀ g h : ℝ, 0 < g → h < nyquist d → g < h → Real.tan (Real.pi * g * d) < Real.tan (Real.pi * h * d) := by
      intro g h hg hh hgh
      apply Real.tan_lt_tan_of_lt_of_lt_pi_div_two
      · have : 0 < Real.pi * g * d := by have := Real.pi_pos; positivity
        linarith [Real.pi_pos]
      · unfold nyquist at hh
        rw [lt_div_iff₀ (by positivity)] at hh
        nlinarith [Real.pi_pos]
      · have := Real.pi_pos
        gcongr
    intro g h hg hh hgn hhn
    refine ⟨fun hlt => ?_, key g h hg hhn⟩
    by_contra hge
    rcases lt_or_eq_of_le (not_lt.1 hge) with h1 | h1
    · exact absurd (key h g hh hgn h1) (not_lt.2 hlt.le)
    · rw [h1] at hlt; exact lt_irrefl _ hlt
  have hA := tan_pos_of a d hd ha (hab.trans hb)
  have hBt := tan_pos_of b d hd (ha.trans hab) hb
  have hF := tan_pos_of f d hd hf hfn
  have hAB := (hmono a b ha (ha.trans hab) (hab.trans hb) hb).2 hab
  rw [← hmono a f ha hf (hab.trans hb) hfn, ← hmono f b hf (ha.trans hab) hfn hb]
  have hor : f = a ∨ f = b → Real.tan (Real.pi * f * d) = Real.tan (Real.pi * a * d) ∨
      Real.tan (Real.pi * f * d) = Real.tan (Real.pi * b * d) := by
    rintro (rfl | rfl)
    · exact Or.inl rfl
    · exact Or.inr rfl
  generalize Real.tan (Real.pi * a * d) = A at *
  generalize Real.tan (Real.pi * b * d) = B at *
  generalize Real.tan (Real.pi * f * d) = F at *
  have hq : 0 < (B - A) * F := mul_pos (by linarith) hF
  constructor
  · intro h
    rw [pow_mul]
    have : ((F ^ 2 - A * B) / ((B - A) * F)) ^ 2 = 1 := by
      rw [div_pow, div_eq_one_iff_eq (by positivity)]
      rcases hor h with h | h <;> rw [h] <;> ring
    rw [this, one_pow]
  · rw [pow_mul, pow_lt_one_iff_of_nonneg (sq_nonneg _) (by omega), div_pow, div_lt_one (by positivity)]
    have e : (F ^ 2 - A * B) ^ 2 - ((B - A) * F) ^ 2 = ((F + A) * (F + B)) * ((F - A) * (F - B)) := by ring
    have hs : 0 < (F + A) * (F + B) := by positivity
    rw [← sub_neg, e, mul_neg_iff]
    constructor
    · rintro (⟨_, h⟩ | ⟨h, _⟩)
      · rcases mul_neg_iff.1 h with ⟨h1, h2⟩ | ⟨h1, h2⟩
        · exact ⟨by linarith, by linarith⟩
        · exfalso; linarith
      · exact absurd h (not_lt.2 hs.le)
    · rintro ⟨h1, h2⟩
      exact Or.inl ⟨hs, mul_neg_of_pos_of_neg (by linarith) (by linarith)⟩

section
variable {design : Design ℝ} (N : Nat) (hB : IsButter design N) (hN : 0 < N) (x : Rec ℝ) (d : ℝ) (hdt : dtOf x = .ok d) (hd : 0 < d)
include hB hN hdt hd

/-- Low-pass filters: the gain at every frequency (in Hz) below the Nyquist frequency. -/
theorem C169_lowpass (c : ℝ) (hc : 0 < c) (hcn : c < nyquist d) :
    ∃ sos, filterKernel design N .lowpass (.num c) x = .ok ((times x).zip (sosfilt sos (vals x))) ∧
      ∀ f, 0 ≤ f → f < nyquist d → ‖sosResp sos (unitDelay f d)‖ ^ 2 =
        1 / (1 + (Real.tan (Real.pi * f * d) / Real.tan (Real.pi * c * d)) ^ (2 * N)) := by
  have hn : 0 < nyquist d := by unfold nyquist; positivity
  obtain ⟨sos, h1, h2⟩ := hB.low (c / nyquist d) (div_pos hc hn) ((scaled_lt c d hd).2 hcn)
  refine ⟨sos, (C64_one_sided design N c d x hdt hd.ne' sos).2 hcn h1, fun f hf hfn => ?_⟩
  have := h2 (f / nyquist d) (div_nonneg hf hn.le) ((scaled_lt f d hd).2 hfn)
  rwa [unit_delay_scaled f d hd, angle_scaled f d hd, angle_scaled c d hd] at this

/-- High-pass filters. -/
theorem C169_highpass (c : ℝ) (hc : 0 < c) (hcn : c < nyquist d) :
    ∃ sos, filterKernel design N .highpass (.num c) x = .ok ((times x).zip (sosfilt sos (vals x))) ∧
      ∀ f, 0 < f → f < nyquist d → ‖sosResp sos (unitDelay f d)‖ ^ 2 =
        1 / (1 + (Real.tan (Real.pi * c * d) / Real.tan (Real.pi * f * d)) ^ (2 * N)) := by
  have hn : 0 < nyquist d := by unfold nyquist; positivity
  obtain ⟨sos, h1, h2⟩ := hB.high (c / nyquist d) (div_pos hc hn) ((scaled_lt c d hd).2 hcn)
  refine ⟨sos, (C64_one_sided design N c d x hdt hd.ne' sos).1 hc h1, fun f hf hfn => ?_⟩
  have := h2 (f / nyquist d) (div_pos hf hn) ((scaled_lt f d hd).2 hfn)
  rwa [unit_delay_scaled f d hd, angle_scaled f d hd, angle_scaled c d hd] at this

/-- The cut-off frequency of the one-sided filters, in Hz, is where half of the power is left; the low-pass filter lets more pass
below and less above it, the high-pass filter the other way round. -/
theorem C169_half_power (c : ℝ) (hc : 0 < c) (hcn : c < nyquist d) :
    ∃ lo hi, filterKernel design N .lowpass (.num c) x = .ok ((times x).zip (sosfilt lo (vals x))) ∧
      filterKernel design N .highpass (.num c) x = .ok ((times x).zip (sosfilt hi (vals x))) ∧
      ‖sosResp lo (unitDelay c d)‖ ^ 2 = 1 / 2 ∧ ‖sosResp hi (unitDelay c d)‖ ^ 2 = 1 / 2 ∧
      (∀ f g, 0 < f → f < g → g < nyquist d → ‖sosResp lo (unitDelay g d)‖ < ‖sosResp lo (unitDelay f d)‖ ∧
        ‖sosResp hi (unitDelay f d)‖ < ‖sosResp hi (unitDelay g d)‖) ∧
      ‖sosResp lo (unitDelay 0 d)‖ = 1 ∧
      ∀ f, 0 < f → f < nyquist d → ‖sosResp lo (unitDelay f d)‖ ^ 2 + ‖sosResp hi (unitDelay f d)‖ ^ 2 = 1 := by
  obtain ⟨lo, l1, l2⟩ := C169_lowpass N hB hN x d hdt hd c hc hcn
  obtain ⟨hi, h1, h2⟩ := C169_highpass N hB hN x d hdt hd c hc hcn
  have tc := tan_pos_of c d hd hc hcn
  have N2 : 2 * N ≠ 0 := by omega
  refine ⟨lo, hi, l1, h1, ?_, ?_, ?_, ?_, ?_⟩
  · rw [l2 c hc.le hcn, div_self tc.ne', one_pow]; norm_num
  · rw [h2 c hc hcn, div_self tc.ne', one_pow]; norm_num
  · intro f g hf hfg hg
    have tf := tan_pos_of f d hd hf (hfg.trans hg)
    have tg := tan_pos_of g d hd (hf.trans hfg) hg
    have tfg : Real.tan (Real.pi * f * d) < Real.tan (Real.pi * g * d) := by
      apply Real.tan_lt_tan_of_lt_of_lt_pi_div_two
      · have : 0 < Real.pi * f * d := by have := Real.pi_pos; positivity
        linarith [Real.pi_pos]
      · unfold nyquist at hg
        rw [lt_div_iff₀ (by positivity)] at hg
        nlinarith [Real.pi_pos]
      · have := Real.pi_pos
        gcongr
    constructor
    · refine lt_of_pow_lt_pow_left₀ 2 (norm_nonneg _) ?_
      rw [l2 g (hf.trans hfg).le hg, l2 f hf.le (hfg.trans hg)]
      apply one_div_lt_one_div_of_lt (by positivity)
      gcongr
    · refine lt_of_pow_lt_pow_left₀ 2 (norm_nonneg _) ?_
      rw [h2 g (hf.trans hfg) hg, h2 f hf (hfg.trans hg)]
      apply one_div_lt_one_div_of_lt (by positivity)
      gcongr
  · have h0 := l2 0 le_rfl (by unfold nyquist; positivity)
    rw [mul_zero, zero_mul, Real.tan_zero, zero_div, zero_pow N2, add_zero, div_one] at h0
    exact (pow_eq_one_iff_of_nonneg (norm_nonneg _) (by norm_num)).1 h0
  · intro f hf hfn
    have tf := tan_pos_of f d hd hf hfn
    rw [l2 f hf.le hfn, h2 f hf hfn, div_pow, div_pow]
    have p1 := pow_pos tc (2 * N)
    have p2 := pow_pos tf (2 * N)
    generalize Real.tan (Real.pi * c * d) ^ (2 * N) = p at *
    generalize Real.tan (Real.pi * f * d) ^ (2 * N) = q at *
    field_simp
    ring

/-- Band-pass filters between the first frequency bin and the Nyquist frequency: half of the power is left at both cut-off
frequencies, more between them and less outside. -/
theorem C169_bandpass (a b : ℝ) (ha : 0 < a) (hab : a < b) (hb : b < nyquist d * (9999 / 10000)) (hf : 1 / ((x.length : ℝ) * d) < a) :
    ∃ sos, filterKernel design N .bandpass (.pair a b) x = .ok ((times x).zip (sosfilt sos (vals x))) ∧
      ‖sosResp sos (unitDelay a d)‖ ^ 2 = 1 / 2 ∧ ‖sosResp sos (unitDelay b d)‖ ^ 2 = 1 / 2 ∧
      ∀ f, 0 < f → f < nyquist d → (1 / 2 < ‖sosResp sos (unitDelay f d)‖ ^ 2 ↔ a < f ∧ f < b) := by
  have hn : 0 < nyquist d := by unfold nyquist; positivity
  have hbn : b < nyquist d := by linarith
  obtain ⟨sos, h1, h2⟩ := hB.band (a / nyquist d) (b / nyquist d) (div_pos ha hn) (div_lt_div_of_pos_right hab hn)
    ((scaled_lt b d hd).2 hbn)
  have h3 : ∀ f, 0 < f → f < nyquist d → _ := fun f hf hfn => h2 (f / nyquist d) (div_pos hf hn) ((scaled_lt f d hd).2 hfn)
  simp only [unit_delay_scaled _ d hd, angle_scaled _ d hd] at h3
  refine ⟨sos, (C64_bandpass design N a b d x hdt hd.ne' hab).2.2 sos hb hf h1, ?_, ?_, ?_⟩
  · rw [h3 a ha (hab.trans hbn), (band_ratio N hN d hd a b ha hab hbn a ha (hab.trans hbn)).1 (Or.inl rfl)]; norm_num
  · rw [h3 b (ha.trans hab) hbn, (band_ratio N hN d hd a b ha hab hbn b (ha.trans hab) hbn).1 (Or.inr rfl)]; norm_num
  · intro f hf hfn
    rw [h3 f hf hfn, ← (band_ratio N hN d hd a b ha hab hbn f hf hfn).2]
    have : ∀ r : ℝ, 0 ≤ r → (1 / 2 < 1 / (1 + r) ↔ r < 1) := by
      intro r hr
      rw [div_lt_div_iff₀ (by norm_num) (by linarith)]
      constructor <;> intro h <;> linarith
    exact this _ ((even_two_mul N).pow_nonneg _)

/-- Band-stop filters, likewise: less than half of the power is left between the cut-off frequencies, more outside. -/
theorem C169_bandstop (a b : ℝ) (ha : 0 < a) (hab : a < b) (hb : b < nyquist d * (9999 / 10000)) (hf : 1 / ((x.length : ℝ) * d) < a) :
    ∃ sos, filterKernel design N .bandstop (.pair a b) x = .ok ((times x).zip (sosfilt sos (vals x))) ∧
      ‖sosResp sos (unitDelay a d)‖ ^ 2 = 1 / 2 ∧ ‖sosResp sos (unitDelay b d)‖ ^ 2 = 1 / 2 ∧
      ∀ f, 0 < f → f < nyquist d → (‖sosResp sos (unitDelay f d)‖ ^ 2 < 1 / 2 ↔ a < f ∧ f < b) := by
  have hn : 0 < nyquist d := by unfold nyquist; positivity
  have hbn : b < nyquist d := by linarith
  obtain ⟨sos, h1, h2⟩ := hB.stop (a / nyquist d) (b / nyquist d) (div_pos ha hn) (div_lt_div_of_pos_right hab hn)
    ((scaled_lt b d hd).2 hbn)
  have h3 : ∀ f, 0 < f → f < nyquist d → _ := fun f hf hfn => h2 (f / nyquist d) (div_pos hf hn) ((scaled_lt f d hd).2 hfn)
  simp only [unit_delay_scaled _ d hd, angle_scaled _ d hd] at h3
  refine ⟨sos, (C64_bandstop design N a b d x hdt hd.ne' hab).2.2 sos hb hf h1, ?_, ?_, ?_⟩
  · rw [h3 a ha (hab.trans hbn), (band_ratio N hN d hd a b ha hab hbn a ha (hab.trans hbn)).1 (Or.inl rfl)]; norm_num
  · rw [h3 b (ha.trans hab) hbn, (band_ratio N hN d hd a b ha hab hbn b (ha.trans hab) hbn).1 (Or.inr rfl)]; norm_num
  · intro f hf hfn
    rw [h3 f hf hfn, ← (band_ratio N hN d hd a b ha hab hbn f hf hfn).2]
    have : ∀ r : ℝ, 0 ≤ r → (1 - 1 / (1 + r) < 1 / 2 ↔ r < 1) := by
      intro r hr
      rw [sub_lt_comm, show (1 : ℝ) - 1 / 2 = 1 / 2 by norm_num, div_lt_div_iff₀ (by norm_num) (by linarith)]
      constructor <;> intro h <;> linarith
    exact this _ ((even_two_mul N).pow_nonneg _)

/-- Two-sided requests whose upper cut-off frequency is within one ten-thousandth of the Nyquist frequency lose that cut-off: the
band-pass filter leaves more than half of the power there, whatever the lower cut-off. -/
theorem C169_near_nyquist_violated (a b : ℝ) (ha : 0 < a) (hab : a < b) (hb : nyquist d * (9999 / 10000) ≤ b) (hbn : b < nyquist d) :
    ∃ sos, filterKernel design N .bandpass (.pair a b) x = .ok ((times x).zip (sosfilt sos (vals x))) ∧
      1 / 2 < ‖sosResp sos (unitDelay b d)‖ ^ 2 := by
  obtain ⟨lo, hi, -, h1, -, h2, h3, -⟩ := C169_half_power N hB hN x d hdt hd a ha (hab.trans hbn)
  refine ⟨hi, by rw [(C64_bandpass design N a b d x hdt hd.ne' hab).1 hb, h1], ?_⟩
  rw [← h2]
  exact pow_lt_pow_left₀ (h3 a b ha hab hbn).2 (norm_nonneg _) (by norm_num)

/-- Two-sided requests whose lower cut-off frequency is within the first frequency bin (one over the duration) lose that one. -/
theorem C169_near_zero_violated (a b : ℝ) (ha : 0 < a) (hab : a < b) (hb : b < nyquist d * (9999 / 10000))
    (hf : a ≤ 1 / ((x.length : ℝ) * d)) :
    ∃ sos, filterKernel design N .bandpass (.pair a b) x = .ok ((times x).zip (sosfilt sos (vals x))) ∧
      1 / 2 < ‖sosResp sos (unitDelay a d)‖ ^ 2 := by
  have hn : 0 < nyquist d := by unfold nyquist; positivity
  have hbn : b < nyquist d := by linarith
  obtain ⟨lo, hi, h1, -, h2, -, h3, -⟩ := C169_half_power N hB hN x d hdt hd b (ha.trans hab) hbn
  refine ⟨lo, by rw [(C64_bandpass design N a b d x hdt hd.ne' hab).2.1 hb hf, h1], ?_⟩
  rw [← h2]
  exact pow_lt_pow_left₀ (h3 a b ha hab hbn).1 (norm_nonneg _) (by norm_num)

end

/-! ## The designs exist -/

/-- Sections of first-order designs. -/
noncomputable def lowSec (k : ℝ) : Sect ℝ := ⟨k / (1 + k), k / (1 + k), 0, (k - 1) / (1 + k), 0⟩
noncomputable def highSec (k : ℝ) : Sect ℝ := ⟨1 / (1 + k), -1 / (1 + k), 0, (k - 1) / (1 + k), 0⟩
noncomputable def bandSec (B P : ℝ) : Sect ℝ :=
  ⟨B / (1 + B + P), 0, -B / (1 + B + P), (2 * P - 2) / (1 + B + P), (1 - B + P) / (1 + B + P)⟩
noncomputable def stopSec (B P : ℝ) : Sect ℝ :=
  ⟨(1 + P) / (1 + B + P), (2 * P - 2) / (1 + B + P), (1 + P) / (1 + B + P), (2 * P - 2) / (1 + B + P), (1 - B + P) / (1 + B + P)⟩

/-- First-order designs. -/
noncomputable def butter1 : Design ℝ := fun _ t w =>
  match t, w with
  | .lowpass, [c] => .ok [lowSec (Real.tan (Real.pi * c / 2))]
  | .highpass, [c] => .ok [highSec (Real.tan (Real.pi * c / 2))]
  | .bandpass, [a, b] => .ok [bandSec (Real.tan (Real.pi * b / 2) - Real.tan (Real.pi * a / 2))
      (Real.tan (Real.pi * a / 2) * Real.tan (Real.pi * b / 2))]
  | .bandstop, [a, b] => .ok [stopSec (Real.tan (Real.pi * b / 2) - Real.tan (Real.pi * a / 2))
      (Real.tan (Real.pi * a / 2) * Real.tan (Real.pi * b / 2))]
  | _, _ => .error .valueError

theorem norm_pq (H l : ℂ) (p q : ℝ) (h : H * (l * (p + q * Complex.I)) = l * p) (hl : l ≠ 0) (hpq : p ^ 2 + q ^ 2 ≠ 0) :
    ‖H‖ ^ 2 = p ^ 2 / (p ^ 2 + q ^ 2) := by
  have h1 : H * (p + q * Complex.I) = p := mul_left_cancel₀ hl (by linear_combination h)
  have h2 := congrArg (fun z => ‖z‖ ^ 2) h1
  simp only [norm_mul, mul_pow, Complex.sq_norm] at h2
  rw [Complex.normSq_add_mul_I, Complex.normSq_ofReal] at h2
  rw [eq_div_iff hpq, Complex.sq_norm]
  linarith

theorem tan_k (c : ℝ) (h0 : 0 < c) (h1 : c < 1) : 0 < Real.tan (Real.pi * c / 2) := by
  apply Real.tan_pos_of_pos_of_lt_pi_div_two <;> nlinarith [Real.pi_pos]

/-- The design assumption can be met (first-order filters, whatever the order asked for). -/
theorem C169_design_exists : IsButter butter1 1 := by
  have hu : ∀ v : ℝ, 0 ≤ v → v < 1 → ∃ (e : ℂ) (C S : ℝ), e ≠ 0 ∧ 0 < C ∧ Real.tan (Real.pi * v / 2) = S / C ∧
      (0 < v → 0 < S) ∧
      1 + unitDelay v (1 / 2) = 2 * C * e ∧ 1 - unitDelay v (1 / 2) = 2 * Complex.I * S * e := by
    intro v hv hv1
    refine ⟨Complex.exp (-(Real.pi * v / 2 : ℝ) * Complex.I), Real.cos (Real.pi * v / 2), Real.sin (Real.pi * v / 2),
      Complex.exp_ne_zero _, ?_, Real.tan_eq_sin_div_cos _, ?_, ?_, ?_⟩
    · apply Real.cos_pos_of_mem_Ioo
      constructor <;> nlinarith [Real.pi_pos]
    · intro h0
      apply Real.sin_pos_of_pos_of_lt_pi <;> nlinarith [Real.pi_pos]
    · rw [Complex.ofReal_cos, Complex.two_cos, add_mul, ← Complex.exp_add, ← Complex.exp_add]
      unfold unitDelay
      congr 1
      · rw [neg_mul, add_neg_cancel, Complex.exp_zero]
      · congr 1; push_cast; ring
    · rw [Complex.ofReal_sin]
      have := Complex.two_sin ((Real.pi * v / 2 : ℝ) : ℂ)
      rw [show ∀ z w : ℂ, 2 * Complex.I * z * w = Complex.I * w * (2 * z) by intros; ring, this]
      have hI := Complex.I_mul_I
      rw [show ∀ w p q : ℂ, Complex.I * w * ((p - q) * Complex.I) = (q - p) * w by
        intro w p q; linear_combination (w * (p - q)) * hI, sub_mul, ← Complex.exp_add, ← Complex.exp_add]
      unfold unitDelay
      congr 1
      · rw [neg_mul, add_neg_cancel, Complex.exp_zero]
      · congr 1; push_cast; ring
  have one : ∀ (c : Sect ℝ) u, sosResp [c] u = sectResp c u := fun c u => by simp [sosResp]
  have step : ∀ (c : Sect ℝ) (u l : ℂ) (p q : ℝ), l ≠ 0 → p ^ 2 + q ^ 2 ≠ 0 →
      (c.b0 : ℂ) + c.b1 * u + c.b2 * u ^ 2 = l * p → 1 + (c.a1 : ℂ) * u + c.a2 * u ^ 2 = l * (p + q * Complex.I) →
      ‖sosResp [c] u‖ ^ 2 = p ^ 2 / (p ^ 2 + q ^ 2) := by
    intro c u l p q hl hpq h1 h2
    rw [one]
    refine norm_pq _ l p q ?_ hl hpq
    unfold sectResp
    rw [h1, h2]
    refine div_mul_cancel₀ _ (mul_ne_zero hl fun h0 => hpq ?_)
    have := congrArg Complex.normSq h0
    rw [Complex.normSq_add_mul_I, map_zero] at this
    exact this
  have hI := Complex.I_mul_I
  constructor
  · intro c h0 h1
    refine ⟨[lowSec (Real.tan (Real.pi * c / 2))], rfl, fun v hv hv1 => ?_⟩
    obtain ⟨e, C, S, he, hC, ht, hS, hp, hm⟩ := hu v hv hv1
    have hk := tan_k c h0 h1
    rw [ht]
    generalize Real.tan (Real.pi * c / 2) = k at *
    have hk1 : (1 + k : ℂ) ≠ 0 := by exact_mod_cast (by linarith : (1 + k : ℝ) ≠ 0)
    rw [mul_one, step _ _ (2 * e / (1 + k)) (k * C) S (div_ne_zero (mul_ne_zero two_ne_zero he) hk1) (by positivity) ?_ ?_]
    · field_simp
    · simp only [lowSec]
      push_cast
      field_simp
      linear_combination k * hp
    · simp only [lowSec]
      push_cast
      field_simp
      linear_combination k * hp + hm
  · intro c h0 h1
    refine ⟨[highSec (Real.tan (Real.pi * c / 2))], rfl, fun v hv hv1 => ?_⟩
    obtain ⟨e, C, S, he, hC, ht, hS, hp, hm⟩ := hu v hv.le hv1
    have hk := tan_k c h0 h1
    have hS := hS hv
    rw [ht]
    generalize Real.tan (Real.pi * c / 2) = k at *
    have hk1 : (1 + k : ℂ) ≠ 0 := by exact_mod_cast (by linarith : (1 + k : ℝ) ≠ 0)
    rw [mul_one, step _ _ (2 * Complex.I * e / (1 + k)) S (-(k * C))
      (div_ne_zero (mul_ne_zero (mul_ne_zero two_ne_zero Complex.I_ne_zero) he) hk1) (by positivity) ?_ ?_]
    · field_simp
    · simp only [highSec]
      push_cast
      field_simp
      linear_combination hm
    · simp only [highSec]
      push_cast
      field_simp
      linear_combination k * hp + hm + (2 * e * k * C) * hI
  · intro a b h0 hab h1
    refine ⟨[bandSec (Real.tan (Real.pi * b / 2) - Real.tan (Real.pi * a / 2)) (Real.tan (Real.pi * a / 2) * Real.tan (Real.pi * b / 2))], rfl, fun v hv hv1 => ?_⟩
    obtain ⟨e, C, S, he, hC, ht, hS, hp, hm⟩ := hu v hv.le hv1
    have ha := tan_k a h0 (hab.trans h1)
    have hb := tan_k b (h0.trans hab) h1
    have hlt : Real.tan (Real.pi * a / 2) < Real.tan (Real.pi * b / 2) := by
      apply Real.tan_lt_tan_of_lt_of_lt_pi_div_two <;> nlinarith [Real.pi_pos]
    have hS := hS hv
    rw [ht]
    generalize Real.tan (Real.pi * a / 2) = ka at *
    generalize Real.tan (Real.pi * b / 2) = kb at *
    have hB : 0 < kb - ka := by linarith
    have hP : 0 < ka * kb := by positivity
    generalize kb - ka = B at *
    generalize ka * kb = P at *
    have hk1 : (1 + B + P : ℂ) ≠ 0 := by exact_mod_cast (by linarith : (1 + B + P : ℝ) ≠ 0)
    rw [mul_one, step _ _ (4 * Complex.I * e ^ 2 / (1 + B + P)) (B * S * C) (S ^ 2 - P * C ^ 2)
      (div_ne_zero (mul_ne_zero (mul_ne_zero (by norm_num : (4 : ℂ) ≠ 0) Complex.I_ne_zero) (pow_ne_zero 2 he)) hk1) (by positivity) ?_ ?_]
    · field_simp
    · simp only [bandSec]
      push_cast
      field_simp
      linear_combination (B * (1 - unitDelay v (1 / 2))) * hp + (B * (2 * C * e)) * hm
    · simp only [bandSec]
      push_cast
      field_simp
      linear_combination (B * (1 - unitDelay v (1 / 2)) + P * (1 + unitDelay v (1 / 2) + 2 * C * e)) * hp +
        (B * (2 * C * e) + (1 - unitDelay v (1 / 2) + 2 * Complex.I * S * e)) * hm + (4 * e ^ 2 * P * C ^ 2) * hI
  · intro a b h0 hab h1
    refine ⟨[stopSec (Real.tan (Real.pi * b / 2) - Real.tan (Real.pi * a / 2)) (Real.tan (Real.pi * a / 2) * Real.tan (Real.pi * b / 2))], rfl, fun v hv hv1 => ?_⟩
    obtain ⟨e, C, S, he, hC, ht, hS, hp, hm⟩ := hu v hv.le hv1
    have ha := tan_k a h0 (hab.trans h1)
    have hb := tan_k b (h0.trans hab) h1
    have hlt : Real.tan (Real.pi * a / 2) < Real.tan (Real.pi * b / 2) := by
      apply Real.tan_lt_tan_of_lt_of_lt_pi_div_two <;> nlinarith [Real.pi_pos]
    have hS := hS hv
    rw [ht]
    generalize Real.tan (Real.pi * a / 2) = ka at *
    generalize Real.tan (Real.pi * b / 2) = kb at *
    have hB : 0 < kb - ka := by linarith
    have hP : 0 < ka * kb := by positivity
    generalize kb - ka = B at *
    generalize ka * kb = P at *
    have hk1 : (1 + B + P : ℂ) ≠ 0 := by exact_mod_cast (by linarith : (1 + B + P : ℝ) ≠ 0)
    rw [mul_one, step _ _ (4 * e ^ 2 / (1 + B + P)) (P * C ^ 2 - S ^ 2) (B * S * C)
      (div_ne_zero (mul_ne_zero (by norm_num : (4 : ℂ) ≠ 0) (pow_ne_zero 2 he)) hk1) (by positivity) ?_ ?_]
    · field_simp
      ring
    · simp only [stopSec]
      push_cast
      field_simp
      linear_combination (P * (1 + unitDelay v (1 / 2) + 2 * C * e)) * hp +
        (1 - unitDelay v (1 / 2) + 2 * Complex.I * S * e) * hm + (4 * e ^ 2 * S ^ 2) * hI
    · simp only [stopSec]
      push_cast
      field_simp
      linear_combination (B * (1 - unitDelay v (1 / 2)) + P * (1 + unitDelay v (1 / 2) + 2 * C * e)) * hp +
        (B * (2 * C * e) + (1 - unitDelay v (1 / 2) + 2 * Complex.I * S * e)) * hm + (4 * e ^ 2 * S ^ 2) * hI

end Verif
