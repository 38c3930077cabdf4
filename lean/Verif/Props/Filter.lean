import Verif.Proof.Filter

set_option linter.unusedSectionVars false
set_option linter.unusedVariables false

namespace Verif

open Spec (times vals Uniform)

variable {K : Type} [Field K] [LinearOrder K]

namespace Spec

/-- The Nyquist frequency for time step `d`. -/
def nyquist (d : K) : K := 1 / (2 * d)

/-- `z = α x + β y`, sample by sample. -/
def IsCombination (α β : K) (x y z : List K) : Prop :=
  z.length = x.length ∧ z.length = y.length ∧
  ∀ (i : Nat) p q, x[i]? = some p → y[i]? = some q → z[i]? = some (α * p + β * q)

end Spec

open Spec (nyquist IsCombination)

theorem nyq_eq (d : K) : 1 / d / 2 = nyquist d := by rw [nyquist, div_div, mul_comm]

/-! ## C64 -/

/-- High-pass filtering at a cut-off of at most 0 returns the record. -/
theorem C64_highpass_unchanged (design : Design K) (n : Nat) (c d : K) (x : Rec K) (hd : dtOf x = .ok d) (h0 : d ≠ 0)
    (hc : c ≤ 0) : filterKernel design n .highpass (.num c) x = .ok x := by
  simp only [filterKernel, filterOne, hd, bind, Except.bind]
  rw [if_neg h0, if_pos trivial, if_pos hc]

/-- Low-pass filtering at or above the Nyquist frequency returns the record. -/
theorem C64_lowpass_unchanged (design : Design K) (n : Nat) (c d : K) (x : Rec K) (hd : dtOf x = .ok d) (h0 : d ≠ 0)
    (hc : nyquist d ≤ c) : filterKernel design n .lowpass (.num c) x = .ok x := by
  simp only [filterKernel, filterOne, hd, bind, Except.bind]
  rw [if_neg h0, if_neg (by decide), if_pos (by rw [nyq_eq]; exact hc)]

/-- Other one-sided requests apply the filter designed for the cut-off as a fraction of the Nyquist frequency. -/
theorem C64_one_sided (design : Design K) (n : Nat) (c d : K) (x : Rec K) (hd : dtOf x = .ok d) (h0 : d ≠ 0)
    (sos : List (Sect K)) :
    (0 < c → design n .highpass [c / nyquist d] = .ok sos →
      filterKernel design n .highpass (.num c) x = .ok ((times x).zip (sosfilt sos (vals x)))) ∧
    (c < nyquist d → design n .lowpass [c / nyquist d] = .ok sos →
      filterKernel design n .lowpass (.num c) x = .ok ((times x).zip (sosfilt sos (vals x)))) := by
  constructor
  · intro hc hs
    simp only [filterKernel, filterOne, hd, bind, Except.bind]
    rw [if_neg h0, if_pos trivial, if_neg (not_le.2 hc), nyq_eq]
    exact applyFilter_of x hs
  · intro hc hs
    simp only [filterKernel, filterOne, hd, bind, Except.bind]
    rw [if_neg h0, if_neg (by decide), if_neg (by rw [nyq_eq]; exact not_le.2 hc), nyq_eq]
    exact applyFilter_of x hs

/-- Band-pass requests: a pass band reaching the Nyquist frequency is a high-pass filter, one starting within the first
frequency bin a low-pass filter, every other one a band-pass filter. -/
theorem C64_bandpass (design : Design K) (n : Nat) (a b d : K) (x : Rec K) (hd : dtOf x = .ok d) (h0 : d ≠ 0)
    (hab : a < b) :
    (nyquist d * (9999 / 10000) ≤ b →
      filterKernel design n .bandpass (.pair a b) x = filterKernel design n .highpass (.num a) x) ∧
    (b < nyquist d * (9999 / 10000) → a ≤ 1 / ((x.length : K) * d) →
      filterKernel design n .bandpass (.pair a b) x = filterKernel design n .lowpass (.num b) x) ∧
    (∀ sos, b < nyquist d * (9999 / 10000) → 1 / ((x.length : K) * d) < a →
      design n .bandpass [a / nyquist d, b / nyquist d] = .ok sos →
      filterKernel design n .bandpass (.pair a b) x = .ok ((times x).zip (sosfilt sos (vals x)))) := by
  have key : filterKernel design n .bandpass (.pair a b) x =
      if nyquist d * (9999 / 10000) ≤ b then filterOne design n true a x
      else if a ≤ 1 / ((x.length : K) * d) then filterOne design n false b x
      else applyFilter design n .bandpass [a / nyquist d, b / nyquist d] x := by
    simp only [filterKernel, filterTwo, hd, bind, Except.bind]
    rw [if_neg (not_le.2 hab), if_neg h0]
    simp only [nyq_eq]
    rfl
  rw [key]
  refine ⟨fun h => by rw [if_pos h]; rfl, fun h h' => by rw [if_neg (not_le.2 h), if_pos h']; rfl,
    fun sos h h' hs => ?_⟩
  rw [if_neg (not_le.2 h), if_neg (not_le.2 h')]
  exact applyFilter_of x hs

/-- Band-stop requests: a stop band reaching the Nyquist frequency is a low-pass filter, one starting within the first
frequency bin a high-pass filter, every other one a band-stop filter. -/
theorem C64_bandstop (design : Design K) (n : Nat) (a b d : K) (x : Rec K) (hd : dtOf x = .ok d) (h0 : d ≠ 0)
    (hab : a < b) :
    (nyquist d * (9999 / 10000) ≤ b →
      filterKernel design n .bandstop (.pair a b) x = filterKernel design n .lowpass (.num a) x) ∧
    (b < nyquist d * (9999 / 10000) → a ≤ 1 / ((x.length : K) * d) →
      filterKernel design n .bandstop (.pair a b) x = filterKernel design n .highpass (.num b) x) ∧
    (∀ sos, b < nyquist d * (9999 / 10000) → 1 / ((x.length : K) * d) < a →
      design n .bandstop [a / nyquist d, b / nyquist d] = .ok sos →
      filterKernel design n .bandstop (.pair a b) x = .ok ((times x).zip (sosfilt sos (vals x)))) := by
  have key : filterKernel design n .bandstop (.pair a b) x =
      if nyquist d * (9999 / 10000) ≤ b then filterOne design n false a x
      else if a ≤ 1 / ((x.length : K) * d) then filterOne design n true b x
      else applyFilter design n .bandstop [a / nyquist d, b / nyquist d] x := by
    simp only [filterKernel, filterTwo, hd, bind, Except.bind]
    rw [if_neg (not_le.2 hab), if_neg h0]
    simp only [nyq_eq]
    rfl
  rw [key]
  refine ⟨fun h => by rw [if_pos h]; rfl, fun h h' => by rw [if_neg (not_le.2 h), if_pos h']; rfl,
    fun sos h h' hs => ?_⟩
  rw [if_neg (not_le.2 h), if_neg (not_le.2 h')]
  exact applyFilter_of x hs

/-- A pass band that covers every frequency returns the record. -/
theorem C64_pass_all (design : Design K) (n : Nat) (a b d : K) (x : Rec K) (hd : dtOf x = .ok d) (h0 : d ≠ 0)
    (ha : a ≤ 0) (hab : a < b) (hb : nyquist d * (9999 / 10000) ≤ b) :
    filterKernel design n .bandpass (.pair a b) x = .ok x := by
  rw [(C64_bandpass design n a b d x hd h0 hab).1 hb]
  exact C64_highpass_unchanged design n a d x hd h0 ha

/-- Requests that are rejected, whatever the record: an unknown type, one cut-off for a two-sided filter, two for a
one-sided one, cut-offs that are not increasing. -/
theorem C64_rejected (design : Design K) (n : Nat) (x : Rec K) :
    (∀ cut, filterKernel design n .bad cut x = .error .valueError) ∧
    (∀ c, filterKernel design n .bandpass (.num c) x = .error .typeError ∧
      filterKernel design n .bandstop (.num c) x = .error .typeError) ∧
    (∀ a b, filterKernel design n .lowpass (.pair a b) x = .error .typeError ∧
      filterKernel design n .highpass (.pair a b) x = .error .typeError) ∧
    (filterKernel design n .bandpass .seq x = .error .valueError ∧
      filterKernel design n .bandstop .seq x = .error .valueError) ∧
    (∀ a b, b ≤ a → filterKernel design n .bandpass (.pair a b) x = .error .valueError ∧
      filterKernel design n .bandstop (.pair a b) x = .error .valueError) := by
  refine ⟨fun _ => rfl, fun _ => ⟨rfl, rfl⟩, fun _ _ => ⟨rfl, rfl⟩, ⟨rfl, rfl⟩, fun a b h => ?_⟩
  constructor <;> (rw [filterKernel]; simp [h])

/-- A rejected design is reported, and only errors of the design are added to the above. -/
theorem C64_design_error (design : Design K) (n : Nat) (c d : K) (x : Rec K) (hd : dtOf x = .ok d) (h0 : d ≠ 0)
    (hc : c < nyquist d) (e : PyErr) (he : design n .lowpass [c / nyquist d] = .error e) :
    filterKernel design n .lowpass (.num c) x = .error e := by
  simp only [filterKernel, filterOne, hd, bind, Except.bind]
  rw [if_neg h0, if_neg (by decide), if_neg (by rw [nyq_eq]; exact not_le.2 hc), nyq_eq, applyFilter, he]
  rfl

/-- Every answer has the time axis of the record. -/
theorem C64_axis (design : Design K) (n : Nat) (ft : FType) (cut : Cut K) (x r : Rec K)
    (h : filterKernel design n ft cut x = .ok r) : times r = times x ∧ r.length = x.length := by
  rcases uses_filterKernel design n ft cut (times x) with ⟨e, he⟩ | ⟨sos, hs⟩
  · rw [he x rfl] at h; cases h
  · rw [hs x rfl] at h
    have hl : (times x).length = (sosfilt sos (vals x)).length := by
      rw [sosfilt_length, times_length, vals_length]
    have : r = (times x).zip (sosfilt sos (vals x)) := (Except.ok.inj h).symm
    subst this
    refine ⟨zip_fst _ _ hl, ?_⟩
    rw [List.length_zip, ← hl, min_self, times_length]

/-! ## C103 -/

/-- Filtering is linear: the filtered combination of two records is the combination of the filtered records, and it
fails exactly when filtering either of them fails. -/
theorem C103_linear (design : Design K) (n : Nat) (ft : FType) (cut : Cut K) (α β : K) (x y z rx : Rec K)
    (hy : times y = times x) (hz : times z = times x) (hv : IsCombination α β (vals x) (vals y) (vals z))
    (h : filterKernel design n ft cut x = .ok rx) :
    ∃ ry rz, filterKernel design n ft cut y = .ok ry ∧ filterKernel design n ft cut z = .ok rz ∧
      IsCombination α β (vals rx) (vals ry) (vals rz) := by
  rcases uses_filterKernel design n ft cut (times x) with ⟨e, he⟩ | ⟨sos, hs⟩
  · rw [he x rfl] at h; cases h
  · have hxr := (Except.ok.inj ((hs x rfl).symm.trans h)).symm
    have lx : (times x).length = (sosfilt sos (vals x)).length := by
      rw [sosfilt_length, times_length, vals_length]
    have ly : (times y).length = (sosfilt sos (vals y)).length := by
      rw [sosfilt_length, times_length, vals_length]
    have lz : (times z).length = (sosfilt sos (vals z)).length := by
      rw [sosfilt_length, times_length, vals_length]
    refine ⟨_, _, hs y hy, hs z hz, ?_⟩
    have hc : vals z = lin2 α β (vals x) (vals y) := by
      have hxy : (vals x).length = (vals y).length := hv.1.symm.trans hv.2.1
      refine List.ext_getElem? fun i => ?_
      by_cases hi : i < (vals x).length
      · rw [hv.2.2 i _ _ (List.getElem?_eq_getElem hi) (List.getElem?_eq_getElem (hxy ▸ hi)), lin2,
          List.getElem?_zipWith, List.getElem?_eq_getElem hi, List.getElem?_eq_getElem (hxy ▸ hi)]
      · rw [List.getElem?_eq_none (by rw [hv.1]; exact not_lt.1 hi), List.getElem?_eq_none]
        rw [lin2, List.length_zipWith, ← hxy, min_self]
        exact not_lt.1 hi
    have e1 : vals rx = sosfilt sos (vals x) := by rw [hxr]; exact zip_snd _ _ lx
    have e2 : vals ((times y).zip (sosfilt sos (vals y))) = sosfilt sos (vals y) := zip_snd _ _ ly
    have e3 : vals ((times z).zip (sosfilt sos (vals z))) = sosfilt sos (vals z) := zip_snd _ _ lz
    rw [e1, e2, e3]
    refine ⟨by rw [sosfilt_length, sosfilt_length, hv.1], by rw [sosfilt_length, sosfilt_length, hv.2.1], ?_⟩
    intro i p q hp hq
    rw [hc, sosfilt_lin, lin2, List.getElem?_zipWith, hp, hq]

/-- Filtering is causal: samples of the answer depend only on samples of the record up to the same time. -/
theorem C103_causal (design : Design K) (n : Nat) (ft : FType) (cut : Cut K) (x y rx ry : Rec K)
    (ht : times y = times x) (k : Nat) (hk : x.take k = y.take k)
    (h : filterKernel design n ft cut x = .ok rx) (h' : filterKernel design n ft cut y = .ok ry) :
    rx.take k = ry.take k := by
  rcases uses_filterKernel design n ft cut (times x) with ⟨e, he⟩ | ⟨sos, hs⟩
  · rw [he x rfl] at h; cases h
  · have hxr := (Except.ok.inj ((hs x rfl).symm.trans h)).symm
    have hyr := (Except.ok.inj ((hs y ht).symm.trans h')).symm
    have hv : (vals x).take k = (vals y).take k := by
      rw [vals, vals, ← List.map_take, ← List.map_take, hk]
    rw [hxr, hyr, ht]
    unfold List.zip
    rw [List.take_zipWith, List.take_zipWith, sosfilt_take, sosfilt_take, hv]

/-- A record of zeros stays zero, and leading zeros stay zero. -/
theorem C103_rest (sos : List (Sect K)) (m : Nat) (x : List K) :
    sosfilt sos (List.replicate m 0 ++ x) = List.replicate m 0 ++ sosfilt sos x ∧
    sosfilt sos (List.replicate m (0 : K)) = List.replicate m 0 :=
  ⟨sosfilt_zeros sos m x, sosfilt_zero sos m⟩

/-- The filters are documented to have zero phase, so that reversing the record reverses the answer.  Among the filters
the code can apply, only multiplications by a constant have this property. -/
theorem C103_zero_phase_violated (sos : List (Sect K))
    (h : ∀ x : List K, sosfilt sos x.reverse = (sosfilt sos x).reverse) :
    ∃ g : K, ∀ x : List K, sosfilt sos x = x.map (g * ·) :=
  ⟨directGain sos, sosfilt_symmetric sos h⟩

/-- The Butterworth low-pass filter of order 1 with cut-off at half of the Nyquist frequency:
`y_k = (x_k + x_{k-1}) / 2`. -/
def exButter : Design ℚ := fun n ft wn =>
  if n = 1 ∧ ft = .lowpass ∧ wn = [1/2] then .ok [⟨1/2, 1/2, 0, 0, 0⟩] else .error .valueError

/-- It delays: the symmetric pulse 0 0 1 0 0 becomes 0 0 ½ ½ 0. -/
theorem C103_delay_violated :
    filterKernel exButter 1 .lowpass (.num (1/4)) [(0, 0), (1, 0), (2, 1), (3, 0), (4, 0)]
      = .ok [(0, 0), (1, 0), (2, 1/2), (3, 1/2), (4, 0)] := by decide +kernel

example : dtOf [((0 : ℚ), (0 : ℚ)), (1, 0), (2, 1)] = .ok 1 ∧ nyquist (1 : ℚ) = 1/2 := by decide +kernel

/-- Nearly the whole range: the request for 0 – 0.49999 Hz at 1 Hz sampling returns the record. -/
example : filterKernel exButter 1 .bandpass (.pair 0 (49999/100000)) [(0, 0), (1, 0), (2, 1)]
    = .ok [(0, 0), (1, 0), (2, 1)] := by decide +kernel

example : filterKernel exButter 1 .bandpass (.pair (1/20) (1/4)) [(0, 0), (1, 4), (2, 1)]
    = .ok [(0, 0), (1, 2), (2, 5/2)] := by decide +kernel

end Verif
