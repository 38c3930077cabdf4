import Verif.Props.TextFiles

/-!
C163: an accelerogram saved with `save_accel` and read again.  C164: a profile saved with `to_txt` and read again.
-/

set_option linter.unusedSectionVars false
set_option linter.unusedVariables false

namespace Verif

open Spec (IsDecimal NearestDecimal Valid5 times vals)

variable {K : Type} [Field K] [LinearOrder K] [IsStrictOrderedRing K] [FloorRing K]

/-! ## C163 -/

/-- Every sample is in the file, in order; times and values are those of the object in the asked unit, to five digits. -/
theorem C163_written (σ : CStore K) (m : Motion K) (unit : MUnit) :
    List.Forall₂ (fun p q => NearestDecimal 5 p.1 q.1 ∧ NearestDecimal 5 p.2 q.2 ∧ |q.1 - p.1| ≤ |p.1| / 20000 ∧
      |q.2 - p.2| ≤ |p.2| / 20000) (saveAccel σ m unit).1 (saveAccelTxt σ m unit) := by
  unfold saveAccelTxt writeRec
  rw [List.forall₂_map_right_iff]
  apply List.forall₂_same.2
  intro p _
  have near : ∀ x : K, NearestDecimal 5 x (fmtG 5 x) := fun x =>
    ⟨fmtG_digits 5 (by norm_num) x, fun z hz => fmtG_near 5 (by norm_num) x z hz⟩
  have err : ∀ x : K, |fmtG 5 x - x| ≤ |x| / 20000 := by
    intro x
    have := fmtG_err 5 x
    calc |fmtG 5 x - x| ≤ |x| * 5 / 10 ^ 5 := this
      _ = |x| / 20000 := by ring
  exact ⟨near _, near _, err _, err _⟩

/-- The times in the file do not decrease if those of the motion do not. -/
theorem C163_order (σ : CStore K) (m : Motion K) (unit : MUnit) (h : (times (saveAccel σ m unit).1).Pairwise (· ≤ ·)) :
    (times (saveAccelTxt σ m unit)).Pairwise (· ≤ ·) := by
  unfold saveAccelTxt writeRec times at *
  rw [List.map_map]
  rw [List.pairwise_map] at h ⊢
  exact h.imp fun hab => fmtG_mono 5 (by norm_num) hab

/-- Read again (`Ground_Motion(fname, unit='m')` for a file saved in `m/s/s`), the file gives a motion with the same number of
samples, and the accelerations and the peak acceleration in the file.  Its time step is the difference of the first two written
times; for a record that starts at 0 it is the time step of the record to five digits. -/
theorem C163_read (σ τ : CStore K) (m : Motion K) (h2 : 2 ≤ (m.accel.read σ).length) :
    ∃ m' τ', mkFresh τ (saveAccelTxt σ m .mpss) = (.ok m', τ') ∧ m'.accel.read τ' = saveAccelTxt σ m .mpss ∧
      m'.npts = (m.accel.read σ).length ∧ m'.pga = maxAbs (vals (saveAccelTxt σ m .mpss)) ∧
      dtOf (saveAccelTxt σ m .mpss) = .ok m'.dt ∧
      ∀ dt, (m.accel.read σ)[0]?.map Prod.fst = some 0 → dtOf (m.accel.read σ) = .ok dt →
        m'.dt = fmtG 5 dt ∧ |m'.dt - dt| ≤ |dt| / 20000 := by
  have hlen : (saveAccelTxt σ m .mpss).length = (m.accel.read σ).length := by simp [saveAccelTxt, writeRec, saveAccel]
  obtain ⟨m', h, h1, h3, h4, h5⟩ := mkFresh_addr τ (saveAccelTxt σ m .mpss) (by omega)
  refine ⟨m', _, h, ?_, by rw [h3, hlen], h5, h4, ?_⟩
  · rw [h1]; simp [Where.read]
  · intro dt h0 hdt
    have hw : saveAccelTxt σ m .mpss = writeRec 5 5 (m.accel.read σ) := rfl
    rw [hw] at h4
    have hd : m'.dt = fmtG 5 dt := by
      match hx : m.accel.read σ with
      | [] => rw [hx] at h2; simp at h2
      | [_] => rw [hx] at h2; simp at h2
      | p :: q :: rest =>
        rw [hx] at h0 hdt h4
        simp only [List.getElem?_cons_zero, Option.map_some, Option.some.injEq] at h0
        simp only [dtOf, Except.ok.injEq, h0, sub_zero] at hdt
        simp only [writeRec, List.map_cons, dtOf, Except.ok.injEq, h0, fmtG_zero, sub_zero] at h4
        rw [← h4, hdt]
    refine ⟨hd, ?_⟩
    rw [hd]
    have := fmtG_err 5 dt
    calc |fmtG 5 dt - dt| ≤ |dt| * 5 / 10 ^ 5 := this
      _ = |dt| / 20000 := by ring

/-- The motion comes back unchanged exactly if all its times and accelerations have at most five digits. -/
theorem C163_exact (σ : CStore K) (m : Motion K) :
    saveAccelTxt σ m .mpss = m.accel.read σ ↔ ∀ p ∈ m.accel.read σ, IsDecimal 5 p.1 ∧ IsDecimal 5 p.2 := by
  have one : ∀ x : K, fmtG 5 x = x ↔ IsDecimal 5 x := by
    intro x
    constructor
    · intro h
      have := fmtG_digits 5 (by norm_num) x
      rwa [h] at this
    · rintro ⟨n, k, h, rfl⟩
      exact fmtG_exact 5 n k h
  show List.map _ (m.accel.read σ) = m.accel.read σ ↔ _
  rw [map_fix_iff]
  constructor
  · intro h p hp
    have := h p hp
    rw [Prod.ext_iff] at this
    exact ⟨(one _).1 this.1, (one _).1 this.2⟩
  · intro h p hp
    exact Prod.ext ((one _).2 (h p hp).1) ((one _).2 (h p hp).2)

theorem unit_in_decade (p : Nat) {e : ℤ} {x : K} (h1 : (10 : K) ^ e ≤ x) (h2 : x < 10 ^ (e + 1)) :
    fmtG p x = roundTo (10 ^ (e - (p : ℤ) + 1)) x := by
  have hx : 0 < x := lt_of_lt_of_le (ten_zpow_pos e) h1
  rw [fmtG_eq p hx.ne']
  unfold unitG
  rw [abs_of_pos hx, log10_eq hx h1 h2]

theorem steps_grow {f : Nat → K} {u : K} (n : Nat) (h : ∀ i < n, f i + u ≤ f (i + 1)) : f 0 + n * u ≤ f n := by
  induction n with
  | zero => simp
  | succ n ih =>
    have := ih fun i hi => h i (by omega)
    have := h n (by omega)
    push_cast
    linarith

/-- The file of a long record holds the same time more than once: within a decade of the time axis whose fifth digit is larger
than the time step, some two consecutive samples get the same written time.  `e` is the decade (2: from 100 s to 1000 s, where
the fifth digit is 0.01 s), `n + 1` the number of samples from the `j`-th on that lie in it. -/
theorem C163_repeated_times_violated (σ : CStore K) (m : Motion K) (unit : MUnit) (j n : Nat) (a dt : K) (e : ℤ) (hdt : 0 < dt)
    (ht : ∀ i : Nat, i ≤ n → (times (saveAccel σ m unit).1)[j + i]? = some (a + (i : K) * dt))
    (hlo : (10 : K) ^ e ≤ a) (hhi : a + (n : K) * dt < 10 ^ (e + 1))
    (hn : (10 : K) ^ (e - 4) < n * (10 ^ (e - 4) - dt)) :
    ∃ i < n, (times (saveAccelTxt σ m unit))[j + i]? = (times (saveAccelTxt σ m unit))[j + i + 1]? := by
  set u : K := 10 ^ (e - 4) with hu
  have hup : 0 < u := ten_zpow_pos _
  have hrng : ∀ i : Nat, i ≤ n → (10 : K) ^ e ≤ a + (i : K) * dt ∧ a + (i : K) * dt < 10 ^ (e + 1) := by
    intro i hi
    have h0 : (0 : K) ≤ (i : K) * dt := by positivity
    have h1 : (i : K) ≤ n := by exact_mod_cast hi
    have h2 : (i : K) * dt ≤ n * dt := mul_le_mul_of_nonneg_right h1 hdt.le
    constructor <;> linarith
  have hw : ∀ i : Nat, i ≤ n → (times (saveAccelTxt σ m unit))[j + i]? = some (roundTo u (a + (i : K) * dt)) := by
    intro i hi
    have h1 := ht i hi
    unfold saveAccelTxt writeRec times at *
    rw [List.map_map, List.getElem?_map]
    rw [List.getElem?_map] at h1
    obtain ⟨p, hp, hpe⟩ := Option.map_eq_some_iff.1 h1
    rw [hp]
    simp only [Option.map_some, Function.comp_apply, hpe]
    obtain ⟨h2, h3⟩ := hrng i hi
    rw [unit_in_decade 5 h2 h3]
    congr 3
    push_cast
    ring
  by_contra hc
  push Not at hc
  have hgrow : ∀ i < n, roundTo u (a + (i : K) * dt) + u ≤ roundTo u (a + ((i + 1 : Nat) : K) * dt) := by
    intro i hi
    have hne := hc i hi
    rw [hw i hi.le, show j + i + 1 = j + (i + 1) by omega, hw (i + 1) hi] at hne
    have hle : roundTo u (a + (i : K) * dt) ≤ roundTo u (a + ((i + 1 : Nat) : K) * dt) := by
      apply roundTo_mono hup
      push_cast
      nlinarith
    apply roundTo_gap hup
    exact lt_of_le_of_ne hle fun h => hne (by rw [h])
  have h1 := steps_grow (f := fun i : Nat => roundTo u (a + (i : K) * dt)) n hgrow
  simp only [Nat.cast_zero, zero_mul, add_zero] at h1
  have h2 := roundTo_err hup a
  have h3 := roundTo_err hup (a + (n : K) * dt)
  rw [abs_le] at h2 h3
  linarith [h2.1, h3.2]

/-- A record from 0 s sampled at 200 Hz and longer than 100.015 s is written with repeated times. -/
theorem C163_200_hertz_violated (σ : CStore K) (m : Motion K) (unit : MUnit)
    (ht : ∀ i : Nat, i < (saveAccel σ m unit).1.length → (times (saveAccel σ m unit).1)[i]? = some ((i : K) * (1 / 200)))
    (hl : 20004 ≤ (saveAccel σ m unit).1.length) :
    ∃ i, i < 20003 ∧ (times (saveAccelTxt σ m unit))[i]? = (times (saveAccelTxt σ m unit))[i + 1]? := by
  obtain ⟨i, hi, h⟩ := C163_repeated_times_violated σ m unit 20000 3 100 (1 / 200) 2 (by norm_num) (by
    intro i hi
    rw [ht (20000 + i) (by omega)]
    congr 1
    push_cast
    ring) (by norm_num) (by norm_num) (by norm_num)
  exact ⟨20000 + i, by omega, h⟩

/-- If the first two samples get the same written time, the motion read from the file has the time step 0 and no velocity and no
displacement at any time, whatever the accelerations. -/
theorem C163_zero_step_violated (σ τ : CStore K) (m : Motion K) (h2 : 2 ≤ (m.accel.read σ).length)
    (h : (times (saveAccelTxt σ m .mpss))[0]? = (times (saveAccelTxt σ m .mpss))[1]?) :
    ∃ m' τ', mkFresh τ (saveAccelTxt σ m .mpss) = (.ok m', τ') ∧ m'.dt = 0 ∧
      (∀ x ∈ vals (m'.veloc.read τ'), x = 0) ∧ (∀ x ∈ vals (m'.displ.read τ'), x = 0) := by
  have hlen : (saveAccelTxt σ m .mpss).length = (m.accel.read σ).length := by simp [saveAccelTxt, writeRec, saveAccel]
  obtain ⟨m', hm, h1, h3, h4, h5⟩ := mkFresh_addr τ (saveAccelTxt σ m .mpss) (by omega)
  have hd0 : m'.dt = 0 := by
    match hx : saveAccelTxt σ m .mpss with
    | [] => rw [hx] at hlen; simp at hlen; omega
    | [_] => rw [hx] at hlen; simp at hlen; omega
    | p :: q :: rest =>
      rw [hx] at h h4
      simp only [times, List.map_cons, List.getElem?_cons_zero, List.getElem?_cons_succ, Option.some.injEq] at h
      simp only [dtOf, Except.ok.injEq, h, sub_self] at h4
      exact h4.symm
  refine ⟨m', _, hm, hd0, ?_⟩
  have hint := mkMotion_accel (τ ++ [saveAccelTxt σ m .mpss]) _ τ.length (saveAccelTxt σ m .mpss) (by simp) .m none m' hm
  have hread : m'.accel.read (τ ++ [saveAccelTxt σ m .mpss]) = saveAccelTxt σ m .mpss := by rw [h1]; simp [Where.read]
  rw [hread, numInt_ok m'.dt _ h4, Except.ok.injEq, Prod.ext_iff] at hint
  obtain ⟨hv, hu⟩ := hint
  have hz : ∀ (t l : List K), ∀ x ∈ vals (t.zip (l.map (· * m'.dt))), x = 0 := by
    intro t l x hx
    unfold vals at hx
    obtain ⟨p, hp, rfl⟩ := List.mem_map.1 hx
    obtain ⟨y, _, hy⟩ := List.mem_map.1 (List.of_mem_zip hp).2
    rw [← hy, hd0, mul_zero]
  simp only at hv hu
  rw [← hv, ← hu]
  exact ⟨hz _ _, hz _ _⟩

/-- This happens to every record that starts at a time `k`·`u` of five digits (`u` the fifth digit) and is sampled at intervals of
at most `u`/2, e.g. one cut out from 100 s on and sampled at 250 Hz. -/
theorem C163_zero_step_when (σ : CStore K) (m : Motion K) (k : ℤ) (e : ℤ) (dt : K) (hk1 : 10 ^ 4 ≤ k) (hk2 : k < 10 ^ 5)
    (hdt : 0 ≤ dt) (hs : dt < 10 ^ (e - 4) / 2)
    (h0 : (times (m.accel.read σ))[0]? = some ((k : K) * 10 ^ (e - 4)))
    (h1 : (times (m.accel.read σ))[1]? = some ((k : K) * 10 ^ (e - 4) + dt)) :
    (times (saveAccelTxt σ m .mpss))[0]? = (times (saveAccelTxt σ m .mpss))[1]? := by
  set u : K := 10 ^ (e - 4) with hu
  have hup : 0 < u := ten_zpow_pos _
  have e4 : (10 : K) ^ e = 10 ^ 4 * u := by
    rw [hu, ← zpow_natCast (10 : K) 4, ← zpow_add₀ (by norm_num)]
    congr 1
    push_cast
    ring
  have e5 : (10 : K) ^ (e + 1) = 10 ^ 5 * u := by
    rw [hu, ← zpow_natCast (10 : K) 5, ← zpow_add₀ (by norm_num)]
    congr 1
    push_cast
    ring
  have hk1' : (10 : K) ^ 4 ≤ (k : K) := by exact_mod_cast hk1
  have hk2' : (k : K) + 1 ≤ 10 ^ 5 := by
    have : k + 1 ≤ 10 ^ 5 := by omega
    exact_mod_cast this
  have hlo : (10 : K) ^ e ≤ (k : K) * u := by rw [e4]; exact mul_le_mul_of_nonneg_right hk1' hup.le
  have hhi : (k : K) * u + dt < 10 ^ (e + 1) := by
    rw [e5]
    have := mul_le_mul_of_nonneg_right hk2' hup.le
    nlinarith
  have hexp : e - ((5 : Nat) : ℤ) + 1 = e - 4 := by push_cast; ring
  have f0 : fmtG 5 ((k : K) * u) = k * u := by
    rw [unit_in_decade 5 hlo (by linarith), hexp, ← hu]
    exact roundTo_mul hup k
  have f1 : fmtG 5 ((k : K) * u + dt) = k * u := by
    rw [unit_in_decade 5 (by linarith) hhi, hexp, ← hu]
    have a1 := roundTo_mono hup (show (k : K) * u ≤ k * u + dt by linarith)
    rw [roundTo_mul hup] at a1
    rcases eq_or_lt_of_le a1 with h | h
    · exact h.symm
    · exfalso
      have a2 : roundTo u ((k : K) * u) < roundTo u (k * u + dt) := by rwa [roundTo_mul hup]
      have a3 := roundTo_gap hup a2
      rw [roundTo_mul hup] at a3
      have a4 := roundTo_err hup ((k : K) * u + dt)
      rw [abs_le] at a4
      linarith [a4.2]
  have hw : ∀ i : Nat, (times (saveAccelTxt σ m .mpss))[i]? = (times (m.accel.read σ))[i]?.map (fmtG 5) := by
    intro i
    have : times (saveAccelTxt σ m .mpss) = (times (m.accel.read σ)).map (fmtG 5) := by
      simp [saveAccelTxt, writeRec, times, saveAccel, Function.comp_def]
    rw [this, List.getElem?_map]
  rw [hw, hw, h0, h1]
  simp only [Option.map_some, f0, f1]

example : (times (saveAccelTxt [[((100 : ℚ), 1), (100004 / 1000, 2), (100008 / 1000, -1)]]
    ⟨.view 0, .own [], .own [], 1, 3, 0, 0, 0⟩ .mpss))[0]? =
    (times (saveAccelTxt [[((100 : ℚ), 1), (100004 / 1000, 2), (100008 / 1000, -1)]] ⟨.view 0, .own [], .own [], 1, 3, 0, 0, 0⟩ .mpss))[1]? :=
  C163_zero_step_when _ _ 10000 2 (4 / 1000) (by norm_num) (by norm_num) (by norm_num) (by norm_num)
    (by simp [Where.read, times]; norm_num) (by simp [Where.read, times]; norm_num)

/-! ## C164 -/

theorem fmtD_nonneg {x : K} (h : 0 ≤ x) : 0 ≤ fmtD x := by
  unfold fmtD
  rw [if_pos h]
  exact_mod_cast Int.floor_nonneg.2 h

/-- In the file each layer has its thickness and velocity to within 5 mm and 5 mm/s, its damping to four and its density to five
digits, and its material number. -/
theorem C164_written (rows : List (Row K)) (hv : Valid5 rows) :
    List.Forall₂ (fun r s => |s.thk - r.thk| ≤ 5 / 1000 ∧ |s.vs - r.vs| ≤ 5 / 1000 ∧ NearestDecimal 4 r.xi s.xi ∧
      NearestDecimal 5 r.rho s.rho ∧ s.mat = r.mat) rows (rows.map writeRow) := by
  rw [List.forall₂_map_right_iff]
  apply List.forall₂_same.2
  intro r hr
  have near : ∀ p, 0 < p → ∀ x : K, NearestDecimal p x (fmtG p x) := fun p hp x =>
    ⟨fmtG_digits p hp x, fun z hz => fmtG_near p hp x z hz⟩
  have err : ∀ x : K, |fmtF 2 x - x| ≤ 5 / 1000 := by
    intro x
    have := fmtF_err 2 x
    calc |fmtF 2 x - x| ≤ 1 / (2 * 10 ^ 2) := this
      _ = 5 / 1000 := by norm_num
  refine ⟨err _, err _, near 4 (by norm_num) _, near 5 (by norm_num) _, ?_⟩
  obtain ⟨n, hn⟩ := hv.mat_int r hr
  show fmtD r.mat = r.mat
  rw [hn, fmtD_int]

theorem fmtF_pos_iff (n : Nat) {x : K} (h : 0 ≤ x) : 0 < fmtF n x ↔ 1 / (2 * 10 ^ n) < x := by
  constructor
  · intro hp
    by_contra hc
    push Not at hc
    rw [fmtF_vanish n h hc] at hp
    exact lt_irrefl _ hp
  · exact fmtF_pos n

/-- The file is accepted on reading exactly if every layer above the last one is thicker than 5 mm and every velocity is more
than 5 mm/s; the last thickness may be anything. -/
theorem C164_accepted_exact (rows : List (Row K)) (hv : Valid5 rows) :
    checkVsFormat (.five (rows.map writeRow)) = .ok () ↔
      (∀ r ∈ rows.dropLast, 5 / 1000 < r.thk) ∧ ∀ r ∈ rows, 5 / 1000 < r.vs := by
  have h5 : (1 : K) / (2 * 10 ^ 2) = 5 / 1000 := by norm_num
  have hmat : ∀ r ∈ rows, fmtD r.mat = r.mat := by
    intro r hr
    obtain ⟨n, hn⟩ := hv.mat_int r hr
    rw [hn, fmtD_int]
  rw [checkVsFormat_five_ok]
  constructor
  · intro h
    constructor
    · intro r hr
      have := h.thk_pos (writeRow r) (by rw [← List.map_dropLast]; exact List.mem_map_of_mem hr)
      rw [← h5]
      exact (fmtF_pos_iff 2 (hv.thk_pos r hr).le).1 this
    · intro r hr
      have := (h.pos (writeRow r) (List.mem_map_of_mem hr)).1
      rw [← h5]
      exact (fmtF_pos_iff 2 (hv.pos r hr).1.le).1 this
  · rintro ⟨ht, hvs⟩
    have hmem : ∀ r ∈ (rows.map writeRow).dropLast, ∃ s ∈ rows.dropLast, r = writeRow s := by
      intro r hr
      rw [← List.map_dropLast] at hr
      obtain ⟨s, hs, rfl⟩ := List.mem_map.1 hr
      exact ⟨s, hs, rfl⟩
    refine ⟨by simpa using hv.nonempty, ?_, ?_, ?_, ?_, ?_, ?_⟩
    · intro r hr
      obtain ⟨s, hs, rfl⟩ := hmem r hr
      exact fmtF_pos 2 (by rw [h5]; exact ht s hs)
    · intro r hr
      obtain ⟨s, hs, rfl⟩ := List.mem_map.1 hr
      exact fmtF_nonneg 2 (hv.thk_nonneg s hs)
    · intro r hr
      obtain ⟨s, hs, rfl⟩ := List.mem_map.1 hr
      obtain ⟨a, b, c⟩ := hv.pos s hs
      exact ⟨fmtF_pos 2 (by rw [h5]; exact hvs s hs), fmtG_pos 4 (by norm_num) b, fmtG_pos 5 (by norm_num) c⟩
    · intro r hr
      obtain ⟨s, hs, rfl⟩ := List.mem_map.1 hr
      show ∃ n : ℤ, fmtD s.mat = n
      rw [hmat s hs]
      exact hv.mat_int s hs
    · intro r hr
      obtain ⟨s, hs, rfl⟩ := hmem r hr
      show 0 < fmtD s.mat
      rw [hmat s (List.mem_of_mem_dropLast hs)]
      exact hv.mat_pos s hs
    · intro r hr
      obtain ⟨s, hs, rfl⟩ := List.mem_map.1 hr
      exact fmtD_nonneg (hv.mat_nonneg s hs)

/-- A profile with a layer of at most 5 mm above its last row cannot be read from its own file: the thickness is written as
0.00, and reading raises ValueError. -/
theorem C164_thin_layer_violated (σ : Store K) (rows : List (Row K)) (hv : Valid5 rows) (r : Row K) (hr : r ∈ rows.dropLast)
    (h : r.thk ≤ 5 / 1000) (du : DampUnit) (de : DensUnit) (addHalf : Bool) (formula : Int) :
    mkProfile (σ ++ [.five (rows.map writeRow)]) σ.length du de addHalf formula = .error .valueError := by
  have h0 : fmtF 2 r.thk = 0 := fmtF_vanish 2 (hv.thk_pos r hr).le (by norm_num at h ⊢; linarith)
  have hc : checkVsFormat (.five (rows.map writeRow)) = .error .valueError := by
    have hthk : checkThkVs ((rows.map writeRow).map Row.thk) ((rows.map writeRow).map Row.vs) = .error .valueError := by
      unfold checkThkVs
      rw [if_pos]
      rw [List.any_eq_true]
      refine ⟨0, ?_, by simp⟩
      rw [← List.map_dropLast, ← List.map_dropLast, List.map_map]
      exact List.mem_map.2 ⟨r, hr, h0⟩
    simp only [checkVsFormat, hthk, bind, Except.bind]
  unfold mkProfile
  simp only [List.getElem?_append_right le_rfl, Nat.sub_self, List.getElem?_cons_zero, hc, bind, Except.bind]

/-- Read again, the profile has the rows of the file, and its depth differs from the one of the profile by at most 5 mm for
each layer. -/
theorem C164_read (σ : Store K) (rows : List (Row K)) (hv : Valid5 rows) (ht : ∀ r ∈ rows.dropLast, 5 / 1000 < r.thk)
    (hvs : ∀ r ∈ rows, 5 / 1000 < r.vs) (o : VsObj K) (τ : Store K)
    (h : mkProfile (σ ++ [.five (rows.map writeRow)]) σ.length .one .si false 3 = .ok (o, τ)) :
    τ[o.prof]? = some (.five (rows.map writeRow)) ∧
      |o.zMax - (rows.map Row.thk).sum| ≤ 5 / 1000 * rows.length := by
  have hok := (C164_accepted_exact rows hv).2 ⟨ht, hvs⟩
  have hconv : (rows.map writeRow).map (convertRow .one .si) = rows.map writeRow := by
    rw [map_fix_iff]
    intro r _
    simp [convertRow]
  unfold mkProfile at h
  simp only [List.getElem?_append_right le_rfl, Nat.sub_self, List.getElem?_cons_zero, hok, bind, Except.bind, reduceCtorEq,
    if_false, hconv, Bool.false_eq_true, false_and] at h
  cases hf : finishObj (rows.map writeRow) ((σ ++ [Cell.five (rows.map writeRow)]).set σ.length (.five (rows.map writeRow))).length
    σ.length ((rows.map writeRow).map Row.thk) with
  | error e => rw [hf] at h; simp at h
  | ok o' =>
    rw [hf] at h
    simp only [pure, Except.pure, Except.ok.injEq, Prod.mk.injEq] at h
    obtain ⟨rfl, rfl⟩ := h
    unfold finishObj at hf
    cases hv30 : calcVs30 ((rows.map writeRow).map Row.tv) 1 with
    | error e => rw [hv30] at hf; simp [bind, Except.bind] at hf
    | ok v =>
      rw [hv30] at hf
      simp only [bind, Except.bind, pure, Except.pure, Except.ok.injEq] at hf
      subst hf
      refine ⟨by simp, ?_⟩
      dsimp only
      clear hv30 hok hconv ht hvs hv
      induction rows with
      | nil => simp
      | cons r rows ih =>
        have h1 := fmtF_err 2 r.thk
        have h2 : |fmtF 2 r.thk - r.thk| ≤ 5 / 1000 := by
          calc |fmtF 2 r.thk - r.thk| ≤ 1 / (2 * 10 ^ 2) := h1
            _ = 5 / 1000 := by norm_num
        have h3 := abs_add_le (fmtF 2 r.thk - r.thk) (((rows.map writeRow).map Row.thk).sum - (rows.map Row.thk).sum)
        simp only [List.map_cons, List.sum_cons, List.length_cons] at ih ⊢
        have e : (writeRow r).thk + ((rows.map writeRow).map Row.thk).sum - (r.thk + (rows.map Row.thk).sum) =
            (fmtF 2 r.thk - r.thk) + (((rows.map writeRow).map Row.thk).sum - (rows.map Row.thk).sum) := by
          show fmtF 2 r.thk + _ - _ = _
          ring
        rw [e]
        push_cast
        linarith

/-- The profile comes back unchanged exactly if thicknesses and velocities have at most two decimals, the dampings four and the
densities five digits. -/
theorem C164_exact (rows : List (Row K)) (hv : Valid5 rows) :
    rows.map writeRow = rows ↔ ∀ r ∈ rows, (∃ n : ℤ, r.thk = (n : K) / 100) ∧ (∃ n : ℤ, r.vs = (n : K) / 100) ∧
      IsDecimal 4 r.xi ∧ IsDecimal 5 r.rho := by
  have one : ∀ p, 0 < p → ∀ x : K, fmtG p x = x ↔ IsDecimal p x := by
    intro p hp x
    constructor
    · intro h
      have := fmtG_digits p hp x
      rwa [h] at this
    · rintro ⟨n, k, h, rfl⟩
      exact fmtG_exact p n k h
  have two : ∀ x : K, fmtF 2 x = x ↔ ∃ n : ℤ, x = (n : K) / 100 := by
    intro x
    constructor
    · intro h
      obtain ⟨n, hn⟩ := fmtF_digits 2 x
      rw [h] at hn
      exact ⟨n, by rw [hn]; norm_num⟩
    · rintro ⟨n, rfl⟩
      have := fmtF_exact (K := K) 2 n
      norm_num at this
      exact this
  rw [map_fix_iff]
  constructor
  · intro h r hr
    have := h r hr
    unfold writeRow at this
    have e1 : fmtF 2 r.thk = r.thk := by conv_rhs => rw [← this]
    have e2 : fmtF 2 r.vs = r.vs := by conv_rhs => rw [← this]
    have e3 : fmtG 4 r.xi = r.xi := by conv_rhs => rw [← this]
    have e4 : fmtG 5 r.rho = r.rho := by conv_rhs => rw [← this]
    exact ⟨(two _).1 e1, (two _).1 e2, (one 4 (by norm_num) _).1 e3, (one 5 (by norm_num) _).1 e4⟩
  · intro h r hr
    obtain ⟨a, b, c, d⟩ := h r hr
    obtain ⟨n, hn⟩ := hv.mat_int r hr
    unfold writeRow
    rw [(two _).2 a, (two _).2 b, (one 4 (by norm_num) _).2 c, (one 5 (by norm_num) _).2 d, hn, fmtD_int, ← hn]

example : [(⟨4 / 1000, 200, 1 / 100, 1900, 1⟩ : Row ℚ), ⟨0, 400, 1 / 200, 2000, 0⟩].map (fun r => (fmtF 2 r.thk, fmtF 2 r.vs)) =
    [(0, 200), (0, 400)] := by decide +kernel

end Verif
