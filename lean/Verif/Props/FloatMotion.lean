import Verif.Props.FloatDepth

set_option linter.unusedSectionVars false
set_option linter.unusedVariables false

namespace Verif

open Spec (IsDouble NearestDouble NeverDecr)

variable {K : Type} [Field K] [LinearOrder K] [IsStrictOrderedRing K] [FloorRing K]

theorem fl_abs (x : K) : |fl x| = fl |x| := by
  rcases le_total 0 x with h | h
  · rw [abs_of_nonneg h, abs_of_nonneg (fl_nonneg h)]
  · rw [abs_of_nonpos h, fl_neg, abs_of_nonpos]
    have := fl_mono h; rwa [fl_zero] at this

/-! ## C146: scaling to a target peak -/

/-- C146: scaling respects the order of the magnitudes: the peak of the scaled motion is at the same sample, and a sample that
is zero stays zero. -/
theorem C146_order (p : K) (acc acc' : List K) (h : fScaleTo p acc = .ok acc') (hp : 0 ≤ p) :
    acc'.length = acc.length ∧
    (∀ (i j : ℕ) a b a' b', acc[i]? = some a → acc[j]? = some b → acc'[i]? = some a' → acc'[j]? = some b' → |a| ≤ |b| → |a'| ≤ |b'|) ∧
    (∀ (i : ℕ) a a', acc[i]? = some a → acc'[i]? = some a' → (0 ≤ a → 0 ≤ a') ∧ (a ≤ 0 → a' ≤ 0)) := by
  unfold fScaleTo at h
  split_ifs at h with h0
  have h := (Except.ok.inj h).symm
  subst h
  have hg : 0 ≤ fPgaInG acc := by
    have : ∀ (l : List K) (m : K), 0 ≤ m → 0 ≤ l.foldl max m := by
      intro l
      induction l with
      | nil => intro m hm; exact hm
      | cons x xs ih => intro m hm; exact ih _ (le_max_of_le_left hm)
    exact fl_nonneg (div_nonneg (this _ _ (le_refl _)) (fl_nonneg (by norm_num)))
  have hf : 0 ≤ fdiv p (fPgaInG acc) := fl_nonneg (div_nonneg hp hg)
  refine ⟨by simp, ?_, ?_⟩
  · intro i j a b a' b' ha hb ha' hb' hab
    rw [List.getElem?_map, ha] at ha'
    rw [List.getElem?_map, hb] at hb'
    simp only [Option.map_some, Option.some.injEq] at ha' hb'
    rw [← ha', ← hb']
    unfold fmul
    rw [fl_abs, fl_abs, abs_mul, abs_mul]
    exact fl_mono (mul_le_mul_of_nonneg_right hab (abs_nonneg _))
  · intro i a a' ha ha'
    rw [List.getElem?_map, ha] at ha'
    simp only [Option.map_some, Option.some.injEq] at ha'
    rw [← ha']
    unfold fmul
    refine ⟨fun h => fl_nonneg (mul_nonneg h hf), fun h => ?_⟩
    have := fl_mono (mul_nonpos_of_nonpos_of_nonneg h hf)
    rwa [fl_zero] at this

/-- A rounded number is the exact one times `1 + e` with `|e|` at most 2^-53. -/
theorem fl_factor {x : K} (h : (2 : K) ^ (-1022 : ℤ) ≤ x) : ∃ e : K, |e| ≤ 1 / 2 ^ 53 ∧ fl x = x * (1 + e) := by
  have hx : 0 < x := lt_of_lt_of_le (zpow_pos (by norm_num) _) h
  refine ⟨(fl x - x) / x, ?_, by field_simp; ring⟩
  have := fl_rel (x := x) (by rwa [abs_of_pos hx])
  rw [abs_div, abs_of_pos hx, div_le_iff₀ hx, abs_sub_comm]
  rw [abs_of_pos hx] at this
  linarith

/-- Four roundings: products and quotients of four factors near one. -/
theorem four_factors {a b c d u : K} (hu : 0 ≤ u) (hu2 : u ≤ 1 / 100) (ha : |a| ≤ u) (hb : |b| ≤ u) (hc : |c| ≤ u) (hd : |d| ≤ u) :
    |(1 + b) * (1 + c) * (1 + d) / (1 + a) - 1| ≤ 5 * u := by
  rw [abs_le] at ha hb hc hd
  have h1 : 0 < 1 + a := by linarith [ha.1]
  have hb1 : 0 ≤ 1 + b := by linarith [hb.1]
  have hc1 : 0 ≤ 1 + c := by linarith [hc.1]
  have hd1 : 0 ≤ 1 + d := by linarith [hd.1]
  have u1 : (1 + b) * (1 + c) * (1 + d) ≤ (1 + u) * (1 + u) * (1 + u) := by
    refine mul_le_mul (mul_le_mul ?_ ?_ hc1 ?_) ?_ hd1 ?_ <;> first | linarith [hb.2, hc.2, hd.2] | positivity
  have l1 : (1 - u) * (1 - u) * (1 - u) ≤ (1 + b) * (1 + c) * (1 + d) := by
    have : 0 ≤ 1 - u := by linarith
    refine mul_le_mul (mul_le_mul ?_ ?_ this hb1) ?_ this (mul_nonneg hb1 hc1) <;> linarith [hb.1, hc.1, hd.1]
  have uu : u * u ≤ u / 100 := by have := mul_le_mul_of_nonneg_left hu2 hu; linarith
  have uu0 : 0 ≤ u * u := mul_nonneg hu hu
  have uuu : u * u * u ≤ u / 10000 := by have := mul_le_mul_of_nonneg_left hu2 uu0; linarith
  have uuu0 : 0 ≤ u * u * u := mul_nonneg uu0 hu
  rw [abs_le]
  constructor
  · suffices hs : 1 - 5 * u ≤ (1 + b) * (1 + c) * (1 + d) / (1 + a) by linarith
    rw [le_div_iff₀ h1]
    have e1 : (1 - u) * (1 - u) * (1 - u) = 1 - 3 * u + 3 * (u * u) - u * u * u := by ring
    have e2 : (1 - 5 * u) * (1 + a) ≤ (1 - 5 * u) * (1 + u) := mul_le_mul_of_nonneg_left (by linarith [ha.2]) (by linarith)
    have e3 : (1 - 5 * u) * (1 + u) = 1 - 4 * u - 5 * (u * u) := by ring
    linarith
  · rw [sub_le_iff_le_add, div_le_iff₀ h1]
    have e1 : (1 + u) * (1 + u) * (1 + u) = 1 + 3 * u + 3 * (u * u) + u * u * u := by ring
    have e2 : (5 * u + 1) * (1 - u) ≤ (5 * u + 1) * (1 + a) := mul_le_mul_of_nonneg_left (by linarith [ha.1]) (by linarith)
    have e3 : (5 * u + 1) * (1 - u) = 1 + 4 * u - 5 * (u * u) := by ring
    linarith

theorem double_pow {e : ℤ} (he : -1074 ≤ e) : IsDouble ((2 : K) ^ e) := ⟨1, e, by norm_num, he, by simp⟩

theorem fl_pow_le {e : ℤ} (he : -1074 ≤ e) {x : K} (h : (2 : K) ^ e ≤ x) : (2 : K) ^ e ≤ fl x := le_fl_of h (double_pow he)

theorem foldl_max_map {f : K → K} (hf : ∀ a b, a ≤ b → f a ≤ f b) (l : List K) (m : K) :
    (l.map f).foldl max (f m) = f (l.foldl max m) := by
  induction l generalizing m with
  | nil => rfl
  | cons x xs ih =>
    simp only [List.map_cons, List.foldl_cons]
    rw [← ih, (show Monotone f from fun a b h => hf a b h).map_max]

/-- The peak of the scaled samples. -/
theorem peak_scaled (acc : List K) (F : K) (hF : 0 ≤ F) : fPeak (acc.map fun a => fmul a F) = fl (fPeak acc * F) := by
  unfold fPeak
  rw [List.map_map]
  have e : (acc.map ((fun a => |a|) ∘ fun a => fmul a F)) = (acc.map fun a => |a|).map fun a => fl (a * F) := by
    rw [List.map_map]
    refine List.map_congr_left fun a _ => ?_
    simp only [Function.comp, fmul]
    rw [fl_abs, abs_mul, abs_of_nonneg hF]
  rw [e]
  have := foldl_max_map (f := fun a => fl (a * F)) (fun a b h => fl_mono (mul_le_mul_of_nonneg_right h hF)) (acc.map fun a => |a|) 0
  simpa [fl_zero] using this

/-- C146, partial: for peaks and targets of ordinary size the peak of the scaled motion, in g, is the target up to five units of
2^-53.  Missing: equality, which fails (`C146_violated`). -/
theorem C146_target_partial (p : K) (acc : List K) (h1 : (2 : K) ^ (-100 : ℤ) ≤ fPeak acc) (h2 : fPeak acc ≤ (2 : K) ^ (100 : ℤ))
    (h3 : (2 : K) ^ (-100 : ℤ) ≤ p) :
    ∃ acc', fScaleTo p acc = .ok acc' ∧ |fPgaInG acc' - p| ≤ p * (5 / 2 ^ 53) := by
  have two : (2 : K) ≠ 0 := by norm_num
  have z : ∀ e : ℤ, (0 : K) < (2 : K) ^ e := fun e => zpow_pos (by norm_num) _
  have hP := lt_of_lt_of_le (z _) h1
  have hp := lt_of_lt_of_le (z _) h3
  generalize hg : fl (981 / 100 : K) = g
  have hg1 : (2 : K) ^ (3 : ℤ) ≤ g := by rw [← hg]; exact fl_pow_le (by norm_num) (by norm_num)
  have hg2 : g ≤ (2 : K) ^ (4 : ℤ) := by rw [← hg]; exact fl_le_of (by norm_num) (double_pow (by norm_num))
  have hg0 := lt_of_lt_of_le (z _) hg1
  generalize hPe : fPeak acc = P at *
  have hG : fPgaInG acc = fl (P / g) := by unfold fPgaInG fdiv; rw [hPe, hg]
  have q1 : (2 : K) ^ (-104 : ℤ) ≤ P / g := by
    rw [le_div_iff₀ hg0]
    calc (2 : K) ^ (-104 : ℤ) * g ≤ (2 : K) ^ (-104 : ℤ) * 2 ^ (4 : ℤ) := mul_le_mul_of_nonneg_left hg2 (z _).le
      _ = (2 : K) ^ (-100 : ℤ) := by rw [← zpow_add₀ two]; norm_num
      _ ≤ P := h1
  have q2 : P / g ≤ (2 : K) ^ (97 : ℤ) := by
    rw [div_le_iff₀ hg0]
    calc P ≤ (2 : K) ^ (100 : ℤ) := h2
      _ = (2 : K) ^ (97 : ℤ) * 2 ^ (3 : ℤ) := by rw [← zpow_add₀ two]; norm_num
      _ ≤ _ := mul_le_mul_of_nonneg_left hg1 (z _).le
  obtain ⟨a, ha, ea⟩ := fl_factor ((two_zpow_le (by norm_num)).trans q1)
  have G1 := fl_pow_le (by norm_num) q1
  have G2 : fl (P / g) ≤ (2 : K) ^ (97 : ℤ) := fl_le_of q2 (double_pow (by norm_num))
  generalize hGe : fl (P / g) = G at *
  have G0 := lt_of_lt_of_le (z _) G1
  have r1 : (2 : K) ^ (-197 : ℤ) ≤ p / G := by
    rw [le_div_iff₀ G0]
    calc (2 : K) ^ (-197 : ℤ) * G ≤ (2 : K) ^ (-197 : ℤ) * 2 ^ (97 : ℤ) := mul_le_mul_of_nonneg_left G2 (z _).le
      _ = (2 : K) ^ (-100 : ℤ) := by rw [← zpow_add₀ two]; norm_num
      _ ≤ p := h3
  obtain ⟨b, hb, eb⟩ := fl_factor ((two_zpow_le (by norm_num)).trans r1)
  have F1 := fl_pow_le (by norm_num) r1
  generalize hFe : fl (p / G) = F at *
  have F0 := lt_of_lt_of_le (z _) F1
  have s1 : (2 : K) ^ (-297 : ℤ) ≤ P * F := by
    calc (2 : K) ^ (-297 : ℤ) = (2 : K) ^ (-100 : ℤ) * 2 ^ (-197 : ℤ) := by rw [← zpow_add₀ two]; norm_num
      _ ≤ _ := mul_le_mul h1 F1 (z _).le hP.le
  obtain ⟨c, hc, ec⟩ := fl_factor ((two_zpow_le (by norm_num)).trans s1)
  have P1 := fl_pow_le (by norm_num) s1
  generalize hP'e : fl (P * F) = P' at *
  have t1 : (2 : K) ^ (-301 : ℤ) ≤ P' / g := by
    rw [le_div_iff₀ hg0]
    calc (2 : K) ^ (-301 : ℤ) * g ≤ (2 : K) ^ (-301 : ℤ) * 2 ^ (4 : ℤ) := mul_le_mul_of_nonneg_left hg2 (z _).le
      _ = (2 : K) ^ (-297 : ℤ) := by rw [← zpow_add₀ two]; norm_num
      _ ≤ P' := P1
  obtain ⟨d, hd, ed⟩ := fl_factor ((two_zpow_le (by norm_num)).trans t1)
  refine ⟨acc.map fun a => fmul a F, ?_, ?_⟩
  · unfold fScaleTo
    rw [hG, if_neg G0.ne']
    unfold fdiv; rw [hFe]
  · have e1 : fPgaInG (acc.map fun a => fmul a F) = fl (P' / g) := by
      unfold fPgaInG fdiv
      rw [peak_scaled acc F F0.le, hPe, hP'e, hg]
    have key := four_factors (u := (1 / 2 ^ 53 : K)) (by positivity) (by norm_num) ha hb hc hd
    have ha1 : (1 + a) ≠ 0 := by
      intro hz
      rw [ea, hz, mul_zero] at G0
      exact lt_irrefl _ G0
    have e2 : fl (P' / g) = p * ((1 + b) * (1 + c) * (1 + d) / (1 + a)) := by
      rw [ed, ec, eb, ea]; field_simp
    rw [e1, e2, show p * ((1 + b) * (1 + c) * (1 + d) / (1 + a)) - p = p * ((1 + b) * (1 + c) * (1 + d) / (1 + a) - 1) by ring,
      abs_mul, abs_of_pos hp]
    refine mul_le_mul_of_nonneg_left (key.trans (le_of_eq (by ring))) hp.le

/-- C146, violated: a record with peak 0.1 m/s/s scaled to 0.3 g has a peak below 0.3 g. -/
theorem C146_violated : ∃ acc' : List ℚ, fScaleTo (fl (3 / 10)) [0, fl (1 / 10), -fl (5 / 100)] = .ok acc' ∧ fPgaInG acc' < fl (3 / 10) := by
  refine ⟨[0, fl (1 / 10), -fl (5 / 100)].map fun a => fmul a (fdiv (fl (3 / 10)) (fPgaInG [0, fl (1 / 10), -fl (5 / 100)])), ?_, ?_⟩ <;>
    decide +kernel

example : ∃ acc', fScaleTo (1 / 2 : ℚ) [0, 3, -2] = .ok acc' ∧ |fPgaInG acc' - 1 / 2| ≤ 1 / 2 * (5 / 2 ^ 53) :=
  C146_target_partial (1 / 2) [0, 3, -2] (by norm_num [fPeak]) (by norm_num [fPeak]) (by norm_num)

/-! ## C147: Arias intensity -/

theorem fAriasFrom_length (c dt s : K) (l : List K) : (fAriasFrom c dt s l).length = l.length := by
  induction l generalizing s with
  | nil => rfl
  | cons a as ih => simp [fAriasFrom, ih]

theorem fAriasFrom_mono {c dt : K} (hc : 0 ≤ c) (hdt : 0 ≤ dt) (l : List K) (s : K) (hs : IsDouble s) :
    NeverDecr (fAriasFrom c dt s l) ∧ ∀ a ∈ fAriasFrom c dt s l, IsDouble a ∧ s ≤ a := by
  induction l generalizing s with
  | nil => exact ⟨fun i a b ha => by simp [fAriasFrom] at ha, by simp [fAriasFrom]⟩
  | cons a as ih =>
    have hinc : 0 ≤ fmul (fmul c (fl (a ^ 2))) dt :=
      fl_nonneg (mul_nonneg (fl_nonneg (mul_nonneg hc (fl_nonneg (sq_nonneg a)))) hdt)
    have hstep : s ≤ fadd s (fmul (fmul c (fl (a ^ 2))) dt) := le_fl_of (by linarith) hs
    obtain ⟨h1, h2⟩ := ih (fadd s (fmul (fmul c (fl (a ^ 2))) dt)) (fl_double _)
    constructor
    · intro i x y hx hy
      cases i with
      | zero =>
        simp only [fAriasFrom, List.getElem?_cons_zero, Option.some.injEq, List.getElem?_cons_succ] at hx hy
        rw [← hx]
        exact hstep.trans (h2 y (List.mem_of_getElem? hy)).2
      | succ i =>
        simp only [fAriasFrom, List.getElem?_cons_succ] at hx hy
        exact h1 i x y hx hy
    · intro x hx
      rcases List.mem_cons.1 hx with rfl | h
      · exact ⟨hs, le_refl _⟩
      · exact ⟨(h2 x h).1, hstep.trans (h2 x h).2⟩

theorem nonDecr_le {l : List K} (h : NeverDecr l) : ∀ (i j : ℕ) a b, i ≤ j → l[i]? = some a → l[j]? = some b → a ≤ b := by
  intro i j
  induction j with
  | zero =>
    intro a b hij ha hb
    obtain rfl : i = 0 := by omega
    rw [ha] at hb; exact (Option.some.inj hb).le
  | succ j ih =>
    intro a b hij ha hb
    rcases Nat.lt_or_ge j i with c | c
    · obtain rfl : i = j + 1 := by omega
      rw [ha] at hb; exact (Option.some.inj hb).le
    · have hl : j < l.length := by have := (List.getElem?_eq_some_iff.1 hb).1; omega
      exact (ih a l[j] c ha (List.getElem?_eq_getElem hl)).trans (h j _ _ (List.getElem?_eq_getElem hl) hb)

/-- C147: in doubles too, Arias intensity starts at 0 and never decreases; the normalised intensity never decreases, lies
between 0 and 1, and ends at exactly 1. -/
theorem C147_arias (c : K) (x : List (K × K)) (ia norm : List K) (hc : 0 ≤ c)
    (ht : ∀ p q, x[0]? = some p → x[1]? = some q → p.1 ≤ q.1) (h : fArias c x = .ok (ia, norm)) :
    ia.length = x.length ∧ norm.length = x.length ∧ ia[0]? = some 0 ∧ NeverDecr ia ∧ NeverDecr norm ∧ (∀ v ∈ norm, 0 ≤ v ∧ v ≤ 1) ∧
      norm.getLast? = some 1 := by
  match x, ht, h with
  | [], _, h => exact absurd h (by simp [fArias])
  | [_], _, h => exact absurd h (by simp [fArias])
  | p :: q :: rest, ht, h =>
    have hdt : 0 ≤ fsub q.1 p.1 := fl_nonneg (sub_nonneg.2 (ht p q rfl rfl))
    obtain ⟨m1, m2⟩ := fAriasFrom_mono hc hdt ((p :: q :: rest).map Prod.snd) 0 double_zero
    have hlen := fAriasFrom_length c (fsub q.1 p.1) 0 ((p :: q :: rest).map Prod.snd)
    unfold fArias at h
    simp only at h
    generalize hia : fAriasFrom c (fsub q.1 p.1) 0 ((p :: q :: rest).map Prod.snd) = L at *
    cases hl : L.getLast? with
    | none => rw [hl] at h; cases h
    | some peak =>
      rw [hl] at h
      simp only at h
      split_ifs at h with h0
      obtain ⟨rfl, rfl⟩ := Prod.mk.inj (Except.ok.inj h)
      have hpm : peak ∈ L := List.mem_of_getLast? hl
      have hp0 : 0 < peak := lt_of_le_of_ne (m2 peak hpm).2 (Ne.symm h0)
      have hlast : L[L.length - 1]? = some peak := by rw [← List.getLast?_eq_getElem?, hl]
      have hle : ∀ v ∈ L, v ≤ peak := by
        intro v hv
        obtain ⟨i, hi, rfl⟩ := List.mem_iff_getElem.1 hv
        exact nonDecr_le m1 i (L.length - 1) _ _ (by omega) (List.getElem?_eq_getElem hi) hlast
      refine ⟨by rw [hlen, List.length_map], by rw [List.length_map, hlen, List.length_map], ?_, m1, ?_, ?_, ?_⟩
      · rw [← hia]; rfl
      · intro i a b ha hb
        rw [List.getElem?_map] at ha hb
        obtain ⟨a', ha', rfl⟩ := Option.map_eq_some_iff.1 ha
        obtain ⟨b', hb', rfl⟩ := Option.map_eq_some_iff.1 hb
        exact fl_mono (div_le_div_of_nonneg_right (m1 i a' b' ha' hb') hp0.le)
      · intro v hv
        obtain ⟨w, hw, rfl⟩ := List.mem_map.1 hv
        refine ⟨fl_nonneg (div_nonneg (m2 w hw).2 hp0.le), fl_le_of ?_ double_one⟩
        rw [div_le_one hp0]; exact hle w hw
      · rw [List.getLast?_map, hl, Option.map_some]
        unfold fdiv
        rw [div_self h0, fl_of_double double_one]

/-- A record with energy in doubles. -/
example : ((fArias (fl (16 / 100 : ℚ)) [(0, fl (1 / 10)), (fl (1 / 100), fl (2 / 10)), (fl (2 / 100), 0)]).toOption.bind
    fun r => r.2.getLast?) = some 1 := by decide +kernel

/-! ## C149: units -/

/-- C149, partial: an acceleration of ordinary size in cm/s/s, read (divided by 100) and saved again in cm/s/s (multiplied by
100), changes by at most 3/2^53 of itself, and keeps its sign.  Missing: that it is unchanged; it is not (`C149_violated`). -/
theorem C149_roundtrip_partial (a : K) (ha : (2 : K) ^ (-1000 : ℤ) ≤ |a|) :
    ∃ b, fSaveCm (fReadCm [a]) = [b] ∧ |b - a| ≤ |a| * (3 / 2 ^ 53) ∧ (0 < a → 0 < b) ∧ (a < 0 → b < 0) := by
  have main : ∀ x : K, (2 : K) ^ (-1000 : ℤ) ≤ x → |fl (fl (x / 100) * 100) - x| ≤ x * (3 / 2 ^ 53) ∧ 0 < fl (fl (x / 100) * 100) := by
    intro x hx
    have z : ∀ e : ℤ, (0 : K) < (2 : K) ^ e := fun e => zpow_pos (by norm_num) _
    have hx0 := lt_of_lt_of_le (z _) hx
    have q1 : (2 : K) ^ (-1007 : ℤ) ≤ x / 100 := by
      rw [le_div_iff₀ (by norm_num)]
      calc (2 : K) ^ (-1007 : ℤ) * 100 ≤ (2 : K) ^ (-1007 : ℤ) * 2 ^ (7 : ℤ) := mul_le_mul_of_nonneg_left (by norm_num) (z _).le
        _ = (2 : K) ^ (-1000 : ℤ) := by rw [← zpow_add₀ (by norm_num : (2 : K) ≠ 0)]; norm_num
        _ ≤ x := hx
    obtain ⟨e, he, ee⟩ := fl_factor ((two_zpow_le (by norm_num)).trans q1)
    have q2 := fl_pow_le (by norm_num) q1
    have q3 : (2 : K) ^ (-1007 : ℤ) ≤ fl (x / 100) * 100 := q2.trans (by nlinarith [z (-1007), q2])
    obtain ⟨f, hf, ef⟩ := fl_factor ((two_zpow_le (by norm_num)).trans q3)
    refine ⟨?_, lt_of_lt_of_le (z _) (fl_pow_le (by norm_num) q3)⟩
    rw [ef, ee, show x / 100 * (1 + e) * 100 * (1 + f) - x = x * ((1 + e) * (1 + f) - 1) by ring, abs_mul, abs_of_pos hx0]
    refine mul_le_mul_of_nonneg_left ?_ hx0.le
    have u0 : (1 / 2 ^ 53 : K) ≤ 1 := by rw [div_le_one (by positivity)]; norm_num
    rw [show (1 + e) * (1 + f) - 1 = e + f + e * f by ring]
    calc |e + f + e * f| ≤ |e| + |f| + |e| * |f| := by
          refine (abs_add_le _ _).trans (add_le_add (abs_add_le _ _) (le_of_eq (abs_mul _ _)))
      _ ≤ 1 / 2 ^ 53 + 1 / 2 ^ 53 + 1 * (1 / 2 ^ 53) := add_le_add (add_le_add he hf) (mul_le_mul (he.trans u0) hf (abs_nonneg _) (by norm_num))
      _ = 3 / 2 ^ 53 := by ring
  refine ⟨fl (fl (a / 100) * 100), rfl, ?_⟩
  rcases le_total 0 a with h | h
  · rw [abs_of_nonneg h] at ha ⊢
    obtain ⟨m1, m2⟩ := main a ha
    exact ⟨m1, fun _ => m2, fun hn => absurd h (not_le.2 hn)⟩
  · rw [abs_of_nonpos h] at ha ⊢
    obtain ⟨m1, m2⟩ := main (-a) ha
    have e : fl (fl (-a / 100) * 100) = -fl (fl (a / 100) * 100) := by
      rw [neg_div, fl_neg, neg_mul, fl_neg]
    rw [e] at m1 m2
    rw [show -fl (fl (a / 100) * 100) - -a = -(fl (fl (a / 100) * 100) - a) by ring, abs_neg] at m1
    exact ⟨m1, fun hp => absurd h (not_le.2 hp), fun _ => by linarith⟩

/-- C149, violated: an acceleration of 0.23 cm/s/s read and saved again is not 0.23 cm/s/s. -/
theorem C149_violated : fSaveCm (fReadCm [fl (23 / 100 : ℚ)]) ≠ [fl (23 / 100)] := by decide +kernel

example : ∃ b : ℚ, fSaveCm (fReadCm [-7]) = [b] ∧ b < 0 := by
  obtain ⟨b, h1, _, _, h4⟩ := C149_roundtrip_partial (-7 : ℚ) (by
    rw [abs_neg, abs_of_pos (by norm_num)]
    refine le_trans (two_zpow_le (b := 0) (by norm_num)) (by norm_num))
  exact ⟨b, h1, h4 (by norm_num)⟩

end Verif
