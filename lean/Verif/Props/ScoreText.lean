import Verif.Model.ScoreText
import Verif.Proof.Single
import Verif.Props.Printed
import Verif.Props.ScoresObj

/-!
Property C173: the texts of the goodness-of-fit scores.
-/

set_option linter.unusedSectionVars false
set_option linter.unusedVariables false

namespace Verif

variable {K : Type} [_root_.Field K] [LinearOrder K] [FloorRing K]

namespace Spec

/-- The slots asked for, in ascending order. -/
def askedSlots (o : ScoreOpts K) : List Nat :=
  [Grp.arias, .rms, .spectra, .cross].flatMap fun G => if G.wanted o then (List.range G.size).map (G.first + ·) else []

/-- The names of the ten scores. -/
def scoreTitle : Nat → String
  | 0 => "Normalized Arias Intensity (S1)"
  | 1 => "Normalized Energy Integral (S2)"
  | 2 => "Peak Arias Intensity (S3)"
  | 3 => "Peak Energy Integral (S4)"
  | 4 => "RMS Acceleration (S5)"
  | 5 => "RMS Velocity (S6)"
  | 6 => "RMS Displacement (S7)"
  | 7 => "Spectral Acceleration (S8)"
  | 8 => "Fourier Spectra (S9)"
  | _ => "Cross Correlation (S10)"

end Spec

open Spec (Grp Band Computes Fills Sized askedSlots scoreTitle)

theorem list_of_len4 {α : Type} {l : List α} (h : l.length = 4) : ∃ a b c d, l = [a, b, c, d] := by
  match l, h with
  | [a, b, c, d], _ => exact ⟨a, b, c, d, rfl⟩

theorem list_of_len3 {α : Type} {l : List α} (h : l.length = 3) : ∃ a b c, l = [a, b, c] := by
  match l, h with
  | [a, b, c], _ => exact ⟨a, b, c, rfl⟩

theorem list_of_len2 {α : Type} {l : List α} (h : l.length = 2) : ∃ a b, l = [a, b] := by
  match l, h with
  | [a, b], _ => exact ⟨a, b, rfl⟩

/-- The scores of a call that returns: ten values, of which those asked for are computed and returned in their order. -/
theorem calc_vals {g : ScoreFns K K} (hz : Sized g) (x : Rec K) (o : ScoreOpts K) (σ r : List (Option K))
    (h : (calcScores g x o σ).1 = .ok r) :
    ∃ a b c d e f i j k l : Option K, (∀ n ∈ askedSlots o, ∃ v, [a, b, c, d, e, f, i, j, k, l][n]? = some v ∧ Fills g x o n v) ∧
      r = (if o.arias then [a, b, c, d] else []) ++ (if o.rms then [e, f, i] else []) ++ (if o.spectra then [j, k] else []) ++
        (if o.cross then [l] else []) := by
  obtain ⟨fr, hb, scs, hF, rfl⟩ := (C56_returned x o σ r).mp h
  have hall : ∀ G : Grp, G.wanted o = true → ∃ sc, G.compute g o fr = .ok sc ∧ sc.length = G.size := by
    intro G hw
    have hm : G ∈ [Grp.arias, .rms, .spectra, .cross].filter (·.wanted o) := by
      rw [List.mem_filter]; exact ⟨by cases G <;> simp, hw⟩
    obtain ⟨i, hi, rfl⟩ := List.mem_iff_getElem.mp hm
    have hl := hF.length_eq
    exact ⟨scs[i]'(hl ▸ hi), hF.get hi (hl ▸ hi), hz _ _ _ _ (hF.get hi (hl ▸ hi))⟩
  have hx : ∀ G : Grp, ∃ sc : List (Option K), sc.length = G.size ∧ (G.wanted o = true → G.compute g o fr = .ok sc) := by
    intro G
    by_cases hw : G.wanted o = true
    · obtain ⟨sc, h1, h2⟩ := hall G hw; exact ⟨sc, h2, fun _ => h1⟩
    · exact ⟨List.replicate G.size none, by simp, fun c => absurd c hw⟩
  choose sc hlen hcomp using hx
  have hfill : ∀ (G : Grp) (n : Nat) v, G.wanted o = true → (sc G)[n]? = some v → Fills g x o (G.first + n) v := by
    intro G n v hw hv
    exact ⟨G, sc G, n, ⟨fr, hb, hw, hcomp G hw, fun G' _ hw' => ⟨_, hcomp G' hw'⟩⟩, rfl, hv⟩
  have hr : ∀ (Gs : List Grp) (l : List (List (Option K))), List.Forall₂ (fun G sc => G.compute g o fr = .ok sc) (Gs.filter (·.wanted o)) l →
      l.flatten = Gs.flatMap fun G => if G.wanted o then sc G else [] := by
    intro Gs
    induction Gs with
    | nil => intro l hl; cases hl; rfl
    | cons G Gs ih =>
      intro l hl
      rw [List.flatMap_cons]
      by_cases hw : G.wanted o = true
      · rw [List.filter_cons_of_pos hw] at hl
        cases hl with
        | cons h1 h2 =>
          rw [hcomp G hw, Except.ok.injEq] at h1
          rw [List.flatten_cons, ih _ h2, if_pos hw, h1]
      · rw [List.filter_cons_of_neg hw] at hl
        rw [ih _ hl, if_neg hw, List.nil_append]
  rw [hr _ _ hF]
  obtain ⟨a, b, c, d, e1⟩ := list_of_len4 (hlen .arias)
  obtain ⟨e, f, i, e2⟩ := list_of_len3 (hlen .rms)
  obtain ⟨j, k, e3⟩ := list_of_len2 (hlen .spectra)
  obtain ⟨l, e4⟩ := List.length_eq_one_iff.mp (hlen .cross)
  refine ⟨a, b, c, d, e, f, i, j, k, l, ?_, ?_⟩
  · intro n hn
    unfold Spec.askedSlots at hn
    rw [List.mem_flatMap] at hn
    obtain ⟨G, _, hn⟩ := hn
    by_cases hw : G.wanted o = true
    · rw [if_pos hw, List.mem_map] at hn
      obtain ⟨m, hm, rfl⟩ := hn
      rw [List.mem_range] at hm
      have key : [a, b, c, d, e, f, i, j, k, l][G.first + m]? = (sc G)[m]? := by
        cases G
        · rw [e1]; simp only [Grp.size] at hm; interval_cases m <;> rfl
        · rw [e2]; simp only [Grp.size] at hm; interval_cases m <;> rfl
        · rw [e3]; simp only [Grp.size] at hm; interval_cases m <;> rfl
        · rw [e4]; simp only [Grp.size] at hm; interval_cases m <;> rfl
      obtain ⟨v, hv⟩ : ∃ v, (sc G)[m]? = some v := ⟨_, List.getElem?_eq_getElem (by rw [hlen]; exact hm)⟩
      exact ⟨v, key.trans hv, hfill G m v hw hv⟩
    · rw [if_neg hw] at hn; cases hn
  · simp only [List.flatMap_cons, List.flatMap_nil, e1, e2, e3, e4, Grp.wanted, List.append_nil, List.append_assoc]

/-- What a line shows of the value of slot `k`: three decimals, for the last score after rounding to single precision. -/
def shownScore (k : Nat) (v : Option K) : Option K := (if k = 9 then v.map fl32 else v).map (fmtF 3)

theorem nanMean_fmt (r : List (Option K)) :
    (nanMean r).map (fmtF 3) = if r = [] then none else (r.mapM id).map fun v => fmtF 3 (v.sum / (v.length : K)) := by
  unfold nanMean
  split
  · rfl
  · rw [Option.map_map]; rfl

/-- The printed lines and average in closed form. -/
theorem verboseText_eq (o : ScoreOpts K) (a b c d e f i j k l : Option K) (stored : List (Option K))
    (h9 : o.cross = true → stored[9]? = some (l.map fl32)) :
    verboseText o ((if o.arias then [a, b, c, d] else []) ++ (if o.rms then [e, f, i] else []) ++ (if o.spectra then [j, k] else []) ++
        (if o.cross then [l] else [])) stored =
      .ok ((askedSlots o).map (fun n => (scoreTitle n, shownScore n ([a, b, c, d, e, f, i, j, k, l][n]?).join)),
        (nanMean ((if o.arias then [a, b, c, d] else []) ++ (if o.rms then [e, f, i] else []) ++ (if o.spectra then [j, k] else []) ++
        (if o.cross then [l] else []))).map (fmtF 3)) := by
  unfold verboseText Spec.askedSlots
  cases ha : o.arias <;> cases hb : o.rms <;> cases hs : o.spectra <;> cases hx : o.cross <;>
    (try have h9 := h9 hx) <;>
    simp [Grp.wanted, ha, hb, hs, hx, Grp.size, Grp.first, List.range_succ, groupLines, scoreLine, scoreNames, scoreTitle, shownScore,
      pure, Except.pure, bind, Except.bind, Except.map, h9, List.mapM_cons, List.mapM_nil]

/-- C173. What `calc_scores(verbose=True)` prints: one line for each score asked for, in ascending order, with its own name and the
value that this call computed, which is also the one returned; and the average of the returned scores. -/
theorem C173_verbose {g : ScoreFns K K} (hz : Sized g) (x : Rec K) (o : ScoreOpts K) (σ r τ : List (Option K)) (hl : σ.length = 10)
    (lines : List (String × Option K)) (avg : Option K) (h : calcVerbose g x o σ = (.ok (r, lines, avg), τ)) :
    ∃ val : Nat → Option K, (∀ k ∈ askedSlots o, Fills g x o k (val k)) ∧ r = (askedSlots o).map val ∧
      lines = (askedSlots o).map (fun k => (scoreTitle k, shownScore k (val k))) ∧
      avg = if r = [] then none else (r.mapM id).map fun v => fmtF 3 (v.sum / (v.length : K)) := by
  unfold calcVerbose at h
  simp only [Prod.mk.injEq] at h
  obtain ⟨h, hτ⟩ := h
  cases hc : (calcScores g x o σ).1 with
  | error e => rw [hc] at h; cases h
  | ok r' =>
    rw [hc] at h
    simp only [Except.bind] at h
    cases hv : verboseText o r' ((calcScores g x o σ).2.map (Option.map fl32)) with
    | error e => rw [hv] at h; cases h
    | ok t =>
      rw [hv] at h
      simp only [Except.map, Except.ok.injEq, Prod.mk.injEq] at h
      obtain ⟨rfl, rfl⟩ := h
      obtain ⟨a, b, c, d, e, f, i, j, k, l, hfl, rfl⟩ := calc_vals hz x o σ r' hc
      have h9 : o.cross = true → (calcScores g x o σ).2[9]? = some l := by
        intro hw
        obtain ⟨v, hv, hf⟩ := hfl 9 (by unfold Spec.askedSlots; simp [Grp.wanted, hw, Grp.size, Grp.first])
        simp only [List.getElem?_cons_succ, List.getElem?_cons_zero, Option.some.injEq] at hv
        subst hv
        exact C56_call hz x o σ hl 9 l hf
      rw [verboseText_eq o a b c d e f i j k l _ (fun hw => by rw [List.getElem?_map, h9 hw]; rfl), Except.ok.injEq, Prod.mk.injEq] at hv
      obtain ⟨rfl, rfl⟩ := hv
      refine ⟨fun n => ([a, b, c, d, e, f, i, j, k, l][n]?).join, ?_, ?_, rfl, ?_⟩
      · intro n hn
        obtain ⟨v, hv, hf⟩ := hfl n hn
        simp only [hv]; exact hf
      · unfold Spec.askedSlots
        cases ha : o.arias <;> cases hb : o.rms <;> cases hs : o.spectra <;> cases hx : o.cross <;>
          simp [Grp.wanted, ha, hb, hs, hx, Grp.size, Grp.first, List.range_succ]
      · exact nanMean_fmt _

/-- C173. Printing never fails: the text is printed exactly if the scores are returned. -/
theorem C173_when {g : ScoreFns K K} (hz : Sized g) (x : Rec K) (o : ScoreOpts K) (σ r : List (Option K)) (hl : σ.length = 10) :
    (calcScores g x o σ).1 = .ok r ↔ ∃ lines avg, (calcVerbose g x o σ).1 = .ok (r, lines, avg) := by
  constructor
  · intro hc
    obtain ⟨a, b, c, d, e, f, i, j, k, l, hfl, rfl⟩ := calc_vals hz x o σ r hc
    have h9 : o.cross = true → (calcScores g x o σ).2[9]? = some l := by
      intro hw
      obtain ⟨v, hv, hf⟩ := hfl 9 (by unfold Spec.askedSlots; simp [Grp.wanted, hw, Grp.size, Grp.first])
      simp only [List.getElem?_cons_succ, List.getElem?_cons_zero, Option.some.injEq] at hv
      subst hv
      exact C56_call hz x o σ hl 9 l hf
    unfold calcVerbose
    simp only
    rw [hc]
    simp only [Except.bind]
    rw [verboseText_eq o a b c d e f i j k l _ (fun hw => by rw [List.getElem?_map, h9 hw]; rfl)]
    exact ⟨_, _, rfl⟩
  · rintro ⟨lines, avg, h⟩
    unfold calcVerbose at h
    simp only at h
    cases hc : (calcScores g x o σ).1 with
    | error e => rw [hc] at h; cases h
    | ok r' =>
      rw [hc] at h
      simp only [Except.bind] at h
      cases hv : verboseText o r' ((calcScores g x o σ).2.map (Option.map fl32)) with
      | error e => rw [hv] at h; cases h
      | ok t =>
        rw [hv] at h
        simp only [Except.map, Except.ok.injEq, Prod.mk.injEq] at h
        rw [h.1]

section
variable [IsStrictOrderedRing K]

/-- C173. The numbers of the lines: the nearest with three decimals, of the score itself or, for the cross correlation, of the nearest
single precision number. A NaN is shown as such. -/
theorem C173_digits (k : Nat) (v : K) :
    (k ≠ 9 → ∃ w, shownScore k (some v) = some w ∧ Spec.NearestPlaces 3 v w) ∧
    (k = 9 → ∃ u w, Spec.NearestSingle v u ∧ shownScore k (some v) = some w ∧ Spec.NearestPlaces 3 u w) ∧
    shownScore k (none : Option K) = none := by
  refine ⟨fun h => ⟨fmtF 3 v, ?_, fmtF_near 3 v⟩, fun h => ⟨fl32 v, fmtF 3 (fl32 v), fl32_nearest v, ?_, fmtF_near 3 _⟩, ?_⟩
  · unfold shownScore; rw [if_neg h]; rfl
  · unfold shownScore; rw [if_pos h]; rfl
  · unfold shownScore; split <;> rfl

/-- Rounding to single precision below a power of two. -/
theorem fl32_below {x : K} {e : ℤ} (h : |x| < (2 : K) ^ (e + 1)) (he : -126 ≤ e) : |x - fl32 x| ≤ (2 : K) ^ (e - 24) := by
  by_cases hx : x = 0
  · subst hx
    rw [fl32_zero, sub_self, abs_zero]
    exact (zpow_pos (by norm_num) _).le
  have h1 := lt_of_le_of_lt (log2_le hx) h
  have h2 := (two_zpow_lt_iff (K := K)).1 h1
  refine (fl32_err x).trans ?_
  have h3 : ulp32 x ≤ (2 : K) ^ (e - 23) := by
    unfold ulp32
    refine two_zpow_le ?_
    unfold ulpExp32; omega
  have h4 : (2 : K) ^ (e - 23) = (2 : K) ^ (e - 24) * 2 := by
    rw [show e - 23 = (e - 24) + 1 by ring, zpow_add₀ (by norm_num : (2 : K) ≠ 0), zpow_one]
  linarith

end

/-! ## `print()` of the object -/

/-- The sum of numbers with rounding to single precision after each addition. -/
def sum32 (s : K) (l : List K) : K := l.foldl (fun s v => fl32 (s + v)) s

theorem scoreLine_lt {k : Nat} (h : k < 10) (v : Option K) : scoreLine k v = .ok (scoreTitle k, v.map (fmtF 3)) := by
  interval_cases k <;> rfl

theorem strLoop_eq : ∀ (l : List (Option K × Nat)) (s : K) (n : Nat), (∀ p ∈ l, p.2 < 10) →
    strLoop l s n = .ok (l.filterMap (fun p => p.1.map fun v => (scoreTitle p.2, some (fmtF 3 v))), sum32 s (l.filterMap Prod.fst),
      n + (l.filterMap Prod.fst).length) := by
  intro l
  induction l with
  | nil => intro s n _; rfl
  | cons p l ih =>
    intro s n h
    obtain ⟨v, k⟩ := p
    cases v with
    | none =>
      rw [strLoop, ih s n (fun p hp => h p (List.mem_cons_of_mem _ hp))]
      rfl
    | some v =>
      rw [strLoop, scoreLine_lt (h (some v, k) List.mem_cons_self)]
      simp only [bind, Except.bind]
      rw [ih _ _ (fun p hp => h p (List.mem_cons_of_mem _ hp))]
      simp only [pure, Except.pure, List.filterMap_cons, Option.map_some, sum32, List.foldl_cons, List.length_cons]
      rw [show n + 1 + (l.filterMap Prod.fst).length = n + ((l.filterMap Prod.fst).length + 1) by omega]

theorem zipIdx_fst (σ : List (Option K)) (n : Nat) : (σ.zipIdx n).filterMap Prod.fst = σ.filterMap id := by
  induction σ generalizing n with
  | nil => rfl
  | cons a σ ih => rw [List.zipIdx_cons, List.filterMap_cons, List.filterMap_cons, ih]; rfl

/-- C173. What `print()` of the object shows: a line for each slot that holds a number, in ascending order, with its own name and the
stored number to three decimals, and the average of these numbers; without any number it raises ZeroDivisionError. -/
theorem C173_str (σ : List (Option K)) (hl : σ.length = 10) :
    (σ.filterMap id = [] → strText σ = .error .zeroDivision) ∧
    (σ.filterMap id ≠ [] → ∃ lines, strText σ = .ok (lines, fmtF 3 (fl32 (sum32 0 (σ.filterMap id) / ((σ.filterMap id).length : K)))) ∧
      lines = σ.zipIdx.filterMap (fun p => p.1.map fun v => (scoreTitle p.2, some (fmtF 3 v)))) := by
  have h := strLoop_eq σ.zipIdx 0 0 (by
    intro p hp
    have := (List.mem_zipIdx (x := p.1) (i := p.2) (k := 0) hp).2.1
    omega)
  rw [zipIdx_fst, Nat.zero_add] at h
  unfold strText
  rw [h]
  simp only [bind, Except.bind]
  constructor
  · intro e; rw [e]; rfl
  · intro e
    rw [if_neg (by simpa using e)]
    exact ⟨_, rfl, rfl⟩

section
variable [IsStrictOrderedRing K]

theorem sum32_err : ∀ (l : List K) (s : K) (m : Nat), (∀ v ∈ l, |v| ≤ 10) → |s| ≤ 11 * (m : K) → m + l.length ≤ 10 →
    |sum32 s l - (s + l.sum)| ≤ (l.length : K) * (2 : K) ^ (-18 : ℤ) ∧ |sum32 s l| ≤ 11 * ((m + l.length : Nat) : K) := by
  intro l
  induction l with
  | nil => intro s m _ hs _; simpa [sum32] using hs
  | cons v l ih =>
    intro s m hv hs hn
    have h0 := hv v List.mem_cons_self
    rw [List.length_cons] at hn
    have hm : (m : K) ≤ 9 := by exact_mod_cast (show m ≤ 9 by omega)
    have h1 : |s + v| ≤ 11 * (m : K) + 10 := (abs_add_le s v).trans (by linarith)
    have h2 := fl32_below (x := s + v) (e := 6) (lt_of_le_of_lt h1 (by norm_num; linarith)) (by norm_num)
    norm_num at h2
    have h3 : |fl32 (s + v)| ≤ 11 * ((m + 1 : Nat) : K) := by
      have := abs_sub_abs_le_abs_sub (fl32 (s + v)) (s + v)
      rw [abs_sub_comm] at this
      push_cast
      linarith
    obtain ⟨e1, e2⟩ := ih (fl32 (s + v)) (m + 1) (fun w hw => hv w (List.mem_cons_of_mem _ hw)) h3 (by omega)
    have e : sum32 s (v :: l) = sum32 (fl32 (s + v)) l := rfl
    rw [e, List.sum_cons, List.length_cons]
    constructor
    · have : sum32 (fl32 (s + v)) l - (s + (v + l.sum)) = (sum32 (fl32 (s + v)) l - (fl32 (s + v) + l.sum)) - ((s + v) - fl32 (s + v)) := by ring
      rw [this]
      refine (abs_sub _ _).trans ?_
      push_cast
      norm_num at e1 ⊢
      linarith
    · rw [show m + (l.length + 1) = m + 1 + l.length by omega]; exact e2

theorem sum_abs_ten : ∀ l : List K, (∀ v ∈ l, |v| ≤ 10) → |l.sum| ≤ 10 * (l.length : K) := by
  intro l
  induction l with
  | nil => simp
  | cons v l ih =>
    intro hv
    rw [List.sum_cons, List.length_cons]
    push_cast
    have := ih (fun w hw => hv w (List.mem_cons_of_mem _ hw))
    have := hv v List.mem_cons_self
    have := abs_add_le v l.sum
    linarith

/-- C173. The average shown by `print()` is that of the stored scores to 0.0005 and the precision of single precision numbers, for scores
between -10 and 10. -/
theorem C173_str_average (σ : List (Option K)) (hl : σ.length = 10) (hb : ∀ v, some v ∈ σ → |v| ≤ 10) (lines : List (String × Option K)) (a : K)
    (h : strText σ = .ok (lines, a)) :
    |a - (σ.filterMap id).sum / ((σ.filterMap id).length : K)| ≤ 1 / 2000 + 1 / 2 ^ 17 := by
  obtain ⟨h1, h2⟩ := C173_str σ hl
  by_cases hc : σ.filterMap id = []
  · rw [h1 hc] at h; cases h
  obtain ⟨ln, h3, _⟩ := h2 hc
  rw [h3, Except.ok.injEq, Prod.mk.injEq] at h
  obtain ⟨_, rfl⟩ := h
  have hv : ∀ v ∈ σ.filterMap id, |v| ≤ 10 := by
    intro v hv
    rw [List.mem_filterMap] at hv
    obtain ⟨w, hw, e⟩ := hv
    simp only [id] at e
    subst e
    exact hb v hw
  have hlen : (σ.filterMap id).length ≤ 10 := hl ▸ List.length_filterMap_le _ _
  generalize σ.filterMap id = l at hc hv hlen
  obtain ⟨e1, _⟩ := sum32_err l 0 0 hv (by simp) (by omega)
  have hpos : (0 : K) < (l.length : K) := by exact_mod_cast List.length_pos_iff.mpr hc
  rw [zero_add] at e1
  have hsum : |l.sum| ≤ 10 * (l.length : K) := sum_abs_ten l hv
  set q := sum32 0 l / (l.length : K) with hq
  have d1 : |q - l.sum / (l.length : K)| ≤ 1 / 2 ^ 18 := by
    rw [hq, ← sub_div, abs_div, abs_of_pos hpos, div_le_iff₀ hpos]
    norm_num at e1 ⊢
    linarith
  have d2 : |l.sum / (l.length : K)| ≤ 10 := by
    rw [abs_div, abs_of_pos hpos, div_le_iff₀ hpos]; exact hsum
  have d3 : |q| < (2 : K) ^ ((3 : ℤ) + 1) := by
    have := abs_sub_abs_le_abs_sub q (l.sum / (l.length : K))
    norm_num at d1 ⊢
    linarith
  have d4 := fl32_below d3 (by norm_num)
  have d5 := fmtF_err 3 (fl32 q)
  have : fmtF 3 (fl32 q) - l.sum / (l.length : K) = (fmtF 3 (fl32 q) - fl32 q) - (q - fl32 q) + (q - l.sum / (l.length : K)) := by ring
  rw [this]
  refine (abs_add_le _ _).trans ?_
  have := abs_sub (fmtF 3 (fl32 q) - fl32 q) (q - fl32 q)
  have n4 : (2 : K) ^ ((3 : ℤ) - 24) = 1 / 2 ^ 21 := by norm_num
  have n5 : (1 : K) / (2 * 10 ^ 3) = 1 / 2000 := by norm_num
  have n6 : (1 : K) / 2 ^ 18 + 1 / 2 ^ 21 ≤ 1 / 2 ^ 17 := by norm_num
  rw [n4] at d4
  rw [n5] at d5
  linarith

/-- C173. The scores kept in the object are those returned exactly where they are single precision numbers. -/
theorem C173_stored_exact {g : ScoreFns K K} (hz : Sized g) (x : Rec K) (o : ScoreOpts K) (σ : List (Option K)) (hl : σ.length = 10)
    (k : Nat) (v : K) (h : Fills g x o k (some v)) : (calcVerbose g x o σ).2[k]? = some (some v) ↔ Spec.IsSingle v := by
  have := C56_call hz x o σ hl k (some v) h
  unfold calcVerbose
  simp only
  rw [List.getElem?_map, this]
  simp only [Option.map_some, Option.some.injEq]
  exact ⟨fun e => e ▸ fl32_single v, fl32_of_single⟩

theorem tenth_not_single : ¬ Spec.IsSingle (1 / 10 : K) := by
  rintro ⟨m, e, _, _, h⟩
  have two : (2 : K) ≠ 0 := by norm_num
  rcases le_or_gt 0 e with he | he
  · obtain ⟨n, rfl⟩ := Int.eq_ofNat_of_zero_le he
    rw [zpow_natCast] at h
    have h2 : (1 : K) = 10 * (m * 2 ^ n) := by rw [← h]; norm_num
    have h3 : (1 : ℤ) = 10 * (m * 2 ^ n) := by exact_mod_cast h2
    omega
  · obtain ⟨n, hn⟩ := Int.eq_ofNat_of_zero_le (show 0 ≤ -e by omega)
    have he' : e = -(n : ℤ) := by omega
    rw [he', zpow_neg, zpow_natCast] at h
    have hp : (2 : K) ^ n ≠ 0 := pow_ne_zero _ two
    have h2 : (2 : K) ^ n = 10 * m := by
      field_simp at h
      linarith
    have h3 : (2 : ℤ) ^ n = 10 * m := by exact_mod_cast h2
    have h5 : ∀ n : ℕ, (2 : ℤ) ^ n % 5 ≠ 0 := by
      intro n
      induction n with
      | zero => norm_num
      | succ n ih => rw [pow_succ]; omega
    have := h5 n
    omega

/-- C173 fails for the scores kept in the object: a computed score of 0.1 is kept as another number, which `get_scores` gives and
`print()` shows. -/
theorem C173_stored_violated {g : ScoreFns K K} (hz : Sized g) (x : Rec K) (o : ScoreOpts K) (σ : List (Option K)) (hl : σ.length = 10)
    (k : Nat) (h : Fills g x o k (some (1 / 10))) : ∃ w, (calcVerbose g x o σ).2[k]? = some (some w) ∧ w ≠ 1 / 10 := by
  have := C56_call hz x o σ hl k (some (1 / 10)) h
  refine ⟨fl32 (1 / 10), ?_, fun e => tenth_not_single (K := K) (e ▸ fl32_single _)⟩
  unfold calcVerbose
  simp only
  rw [List.getElem?_map, this]
  rfl

end

/-- C173 fails with a NaN among the scores: the average printed by `calc_scores` is NaN, while the one of `print()` is that of the
other scores. -/
theorem C173_nan_violated {g : ScoreFns K K} (hz : Sized g) (x : Rec K) (o : ScoreOpts K) (σ r τ : List (Option K)) (hl : σ.length = 10)
    (lines : List (String × Option K)) (avg : Option K) (h : calcVerbose g x o σ = (.ok (r, lines, avg), τ)) (hn : none ∈ r)
    (v : K) (hv : some v ∈ r) : avg = none ∧ ∃ ln a, strText τ = .ok (ln, a) := by
  obtain ⟨val, hf, hr, _, ha⟩ := C173_verbose hz x o σ r τ hl lines avg h
  constructor
  · rw [ha]
    split
    · rfl
    · have : ∀ l : List (Option K), none ∈ l → l.mapM id = none := by
        intro l
        induction l with
        | nil => intro h; cases h
        | cons a l ih =>
          intro h
          cases a with
          | none => rfl
          | some a =>
            have : none ∈ l := by simpa using h
            rw [List.mapM_cons, ih this]; rfl
      rw [this r hn]; rfl
  · have hτ : τ = (calcScores g x o σ).2.map (Option.map fl32) := by
      unfold calcVerbose at h
      simp only [Prod.mk.injEq] at h
      exact h.2.symm
    rw [hr, List.mem_map] at hv
    obtain ⟨k, hk, e⟩ := hv
    have hs := C56_call hz x o σ hl k (val k) (hf k hk)
    rw [e] at hs
    have hmem : some (fl32 v) ∈ τ := by
      rw [hτ, List.mem_map]
      exact ⟨some v, List.mem_of_getElem? hs, rfl⟩
    have hlen : τ.length = 10 := by
      rw [hτ, List.length_map]; exact calcScores_length g hz x o σ hl
    obtain ⟨_, h2⟩ := C173_str τ hlen
    obtain ⟨ln, e, _⟩ := h2 (fun c => by
      have : fl32 v ∈ τ.filterMap id := List.mem_filterMap.mpr ⟨_, hmem, rfl⟩
      rw [c] at this; cases this)
    exact ⟨ln, _, e⟩

/-- C173 fails after a call for other scores: `print()` still shows, and counts in the average, a score kept from an earlier call, whatever
frequency range that call was for. -/
theorem C173_old_violated {g : ScoreFns K K} (hz : Sized g) (x : Rec K) (o : ScoreOpts K) (σ : List (Option K)) (hl : σ.length = 10)
    (k : Nat) (v : K) (hk : k ∉ askedSlots o) (hv : σ[k]? = some (some v)) :
    ∃ lines a, strText (calcVerbose g x o σ).2 = .ok (lines, a) ∧ (scoreTitle k, some (fmtF 3 (fl32 v))) ∈ lines := by
  have hno : ∀ w, ¬ Fills g x o k w := by
    rintro w ⟨G, sc, j, ⟨f, hb, hw, hc, _⟩, rfl, hj⟩
    refine hk ?_
    unfold Spec.askedSlots
    rw [List.mem_flatMap]
    refine ⟨G, by cases G <;> simp, ?_⟩
    rw [if_pos hw, List.mem_map]
    refine ⟨j, ?_, rfl⟩
    rw [List.mem_range, ← hz _ _ _ _ hc]
    by_contra hcn
    rw [List.getElem?_eq_none (by omega)] at hj; cases hj
  have hs := C56_frame hz x o σ hl k hno
  rw [hv] at hs
  have hlen : (calcVerbose g x o σ).2.length = 10 := by
    unfold calcVerbose
    simp only [List.length_map]; exact calcScores_length g hz x o σ hl
  have hg : (calcVerbose g x o σ).2[k]? = some (some (fl32 v)) := by
    unfold calcVerbose
    simp only
    rw [List.getElem?_map, hs]; rfl
  obtain ⟨_, h2⟩ := C173_str _ hlen
  obtain ⟨ln, e, hln⟩ := h2 (fun c => by
    have : fl32 v ∈ (calcVerbose g x o σ).2.filterMap id := List.mem_filterMap.mpr ⟨_, List.mem_of_getElem? hg, rfl⟩
    rw [c] at this; cases this)
  refine ⟨ln, _, e, ?_⟩
  rw [hln, List.mem_filterMap]
  refine ⟨(some (fl32 v), k), ?_, rfl⟩
  rw [List.mem_zipIdx_iff_getElem?]
  exact hg

/-- A call for the root-mean-square scores, and what is printed. -/
example : (calcVerbose demoFns [(0, 0), (1, 0)] ⟨some (1 / 3), some 50, false, true, false, false, true⟩ scores0).1 =
    .ok ([some (1 / 3), some 6, some 7],
      [("RMS Acceleration (S5)", some (333 / 1000)), ("RMS Velocity (S6)", some 6), ("RMS Displacement (S7)", some 7)],
      some (4444 / 1000)) := by decide +kernel

/-- The hypothesis of `C173_stored_violated` holds for a call whose band starts at 0.1. -/
example : Fills demoFns [(0, 0), (1, 0)] (demoCall (1 / 10) true) 4 (some (1 / 10)) :=
  ⟨.rms, [some (1 / 10), some 6, some 7], 0, ⟨(1 / 10, 50), ⟨0, 1, rfl, rfl, by norm_num, rfl, rfl, by norm_num⟩, rfl, rfl, fun G h _ => by
    cases G
    · exact ⟨_, rfl⟩
    · simp [Grp.first] at h
    · simp [Grp.first] at h
    · simp [Grp.first] at h⟩, rfl, rfl⟩

end Verif
