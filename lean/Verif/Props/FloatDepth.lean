import Verif.Props.FloatIndex

set_option linter.unusedSectionVars false
set_option linter.unusedVariables false

namespace Verif

open Spec (IsDouble NearestDouble)

variable {K : Type} [Field K] [LinearOrder K] [IsStrictOrderedRing K] [FloorRing K]

namespace Spec

/-- Every element is at most the next one. -/
def NeverDecr {K : Type} [LE K] (l : List K) : Prop := ∀ (i : ℕ) a b, l[i]? = some a → l[i + 1]? = some b → a ≤ b

end Spec

open Spec (NeverDecr)

theorem fzTop_length (z : K) (l : List K) : (fzTop z l).length = l.length := by
  induction l generalizing z with
  | nil => rfl
  | cons t ts ih => simp [fzTop, ih]

/-- Consecutive depths: the next is the rounded sum of the depth and the thickness. -/
theorem fzTop_step (z : K) (l : List K) (i : ℕ) (a b h : K) (ha : (fzTop z l)[i]? = some a) (hb : (fzTop z l)[i + 1]? = some b)
    (hh : l[i]? = some h) : b = fadd a h := by
  induction l generalizing z i with
  | nil => simp [fzTop] at ha
  | cons t ts ih =>
    cases i with
    | zero =>
      simp only [fzTop, List.getElem?_cons_zero, Option.some.injEq, List.getElem?_cons_succ] at ha hb hh
      cases ts with
      | nil => simp [fzTop] at hb
      | cons t' ts' =>
        simp only [fzTop, List.getElem?_cons_zero, Option.some.injEq] at hb
        rw [← hb, ← ha, ← hh]
    | succ i =>
      simp only [fzTop, List.getElem?_cons_succ] at ha hb hh
      exact ih _ i ha hb hh

theorem fzTop_double (z : K) (hz : IsDouble z) (l : List K) : ∀ a ∈ fzTop z l, IsDouble a := by
  induction l generalizing z with
  | nil => simp [fzTop]
  | cons t ts ih =>
    intro a ha
    rcases List.mem_cons.1 ha with rfl | h
    · exact hz
    · exact ih _ (fl_double _) a h

theorem fzTop_nonneg (z : K) (hz : 0 ≤ z) (l : List K) (hl : ∀ t ∈ l, 0 ≤ t) : ∀ a ∈ fzTop z l, 0 ≤ a := by
  induction l generalizing z with
  | nil => simp [fzTop]
  | cons t ts ih =>
    intro a ha
    rcases List.mem_cons.1 ha with rfl | h
    · exact hz
    · exact ih _ (fl_nonneg (add_nonneg hz (hl t (by simp)))) (fun u hu => hl u (by simp [hu])) a h

/-- C142: in doubles, the depths computed from thicknesses that are not negative start at 0, are doubles, and never decrease. -/
theorem C142_sorted (thk : List K) (hne : thk ≠ []) (ht : ∀ t ∈ thk, 0 ≤ t) :
    ∃ dep, fthk2dep thk = .ok dep ∧ dep.length = thk.length ∧ dep[0]? = some 0 ∧ (∀ d ∈ dep, IsDouble d ∧ 0 ≤ d) ∧ NeverDecr dep := by
  refine ⟨fzTop 0 thk, by unfold fthk2dep; rw [if_neg hne], fzTop_length _ _, ?_, ?_, ?_⟩
  · cases thk with
    | nil => exact absurd rfl hne
    | cons t ts => rfl
  · intro d hd
    exact ⟨fzTop_double 0 double_zero _ d hd, fzTop_nonneg 0 (le_refl _) _ ht d hd⟩
  · intro i a b ha hb
    have hi : i < thk.length := by
      have := (List.getElem?_eq_some_iff.1 ha).1
      rwa [fzTop_length] at this
    have hd := fzTop_double (K := K) 0 double_zero thk a (List.mem_of_getElem? ha)
    rw [fzTop_step 0 thk i a b thk[i] ha hb (List.getElem?_eq_getElem hi)]
    exact le_fl_of (by linarith [ht thk[i] (List.getElem_mem hi)]) hd

theorem fdepLoop_length (l : List K) : (fdepLoop l).length = l.length := by
  induction l with
  | nil => rfl
  | cons a as ih =>
    cases as with
    | nil => rfl
    | cons b bs => simp only [fdepLoop, List.length_cons] at ih ⊢; omega

theorem fdepLoop_get (l : List K) (i : ℕ) (a b : K) (ha : l[i]? = some a) (hb : l[i + 1]? = some b) :
    (fdepLoop l)[i]? = some (fsub b a) := by
  induction l generalizing i with
  | nil => simp at ha
  | cons x xs ih =>
    cases xs with
    | nil => simp at hb
    | cons y ys =>
      cases i with
      | zero => simp at ha hb; simp [fdepLoop, ha, hb]
      | succ i => simp only [fdepLoop, List.getElem?_cons_succ] at ha hb ⊢; exact ih i ha hb

theorem fdepLoop_last (l : List K) (hne : l ≠ []) : (fdepLoop l)[l.length - 1]? = some 0 := by
  induction l with
  | nil => exact absurd rfl hne
  | cons x xs ih =>
    cases xs with
    | nil => rfl
    | cons y ys =>
      have := ih (by simp)
      simp only [fdepLoop, List.length_cons, Nat.add_sub_cancel] at this ⊢
      rw [List.getElem?_cons_succ]; exact this

/-- C142: in doubles, the thicknesses computed from depths that start at 0 and never decrease are doubles and not negative, and
a layer has thickness 0 only if its top and bottom are the same number. -/
theorem C142_thicknesses (dep : List K) (h0 : dep[0]? = some 0) (hd : ∀ d ∈ dep, IsDouble d) (hs : NeverDecr dep) :
    ∃ thk, fdep2thk dep true = .ok thk ∧ thk.length = dep.length ∧ (∀ t ∈ thk, IsDouble t ∧ 0 ≤ t) ∧
      ∀ (i : ℕ) a b t, dep[i]? = some a → dep[i + 1]? = some b → thk[i]? = some t → (t = 0 ↔ a = b) := by
  cases dep with
  | nil => simp at h0
  | cons d ds =>
    simp only [List.getElem?_cons_zero, Option.some.injEq] at h0
    refine ⟨fdepLoop (d :: ds), by unfold fdep2thk; simp [h0], fdepLoop_length _, ?_, ?_⟩
    · intro t ht
      obtain ⟨i, hi, rfl⟩ := List.mem_iff_getElem.1 ht
      rw [fdepLoop_length] at hi
      by_cases hl : i + 1 < (d :: ds).length
      · have e := fdepLoop_get (d :: ds) i _ _ (List.getElem?_eq_getElem hi) (List.getElem?_eq_getElem hl)
        have := (List.getElem?_eq_some_iff.1 e).2
        rw [this]
        refine ⟨fl_double _, fl_nonneg (sub_nonneg.2 ?_)⟩
        exact hs i _ _ (List.getElem?_eq_getElem hi) (List.getElem?_eq_getElem hl)
      · have hil : i = (d :: ds).length - 1 := by omega
        have e := fdepLoop_last (d :: ds) (by simp)
        rw [← hil] at e
        rw [(List.getElem?_eq_some_iff.1 e).2]
        exact ⟨double_zero, le_refl _⟩
    · intro i a b t ha hb ht
      rw [fdepLoop_get _ i a b ha hb, Option.some.injEq] at ht
      subst ht
      have h := fl_rel_sub (hd b (List.mem_of_getElem? hb)) (hd a (List.mem_of_getElem? ha))
      unfold fsub
      constructor
      · intro hc
        rw [hc, sub_zero] at h
        by_contra hab
        have hp : 0 < |b - a| := abs_pos.2 (sub_ne_zero.2 (Ne.symm hab))
        have : |b - a| / 2 ^ 53 < |b - a| := by rw [div_lt_iff₀ (by positivity)]; nlinarith [hp, (by norm_num : (1 : K) < 2 ^ 53)]
        linarith
      · rintro rfl; rw [sub_self, fl_zero]

/-- C142: without the half-space, the thicknesses are the same ones but for the last, which belongs to the half-space and is 0. -/
theorem C142_no_halfspace (dep : List K) (h0 : dep[0]? = some 0) :
    ∃ thk, fdep2thk dep false = .ok thk ∧ fdep2thk dep true = .ok (thk ++ [0]) ∧ thk.length + 1 = dep.length := by
  cases dep with
  | nil => simp at h0
  | cons d ds =>
    simp only [List.getElem?_cons_zero, Option.some.injEq] at h0
    have hlast : ∀ (l : List K) (d : K), ∃ t, fdepLoop (d :: l) = t ++ [0] := by
      intro l
      induction l with
      | nil => intro d; exact ⟨[], rfl⟩
      | cons e es ih =>
        intro d
        obtain ⟨t, ht⟩ := ih e
        exact ⟨fsub e d :: t, by rw [fdepLoop, ht]; rfl⟩
    obtain ⟨t, ht⟩ := hlast ds d
    have hl := fdepLoop_length (d :: ds)
    rw [ht, List.length_append, List.length_singleton] at hl
    refine ⟨t, ?_, ?_, hl⟩
    · unfold fdep2thk
      simp [h0]
      rw [← h0, ht, List.dropLast_concat]
    · unfold fdep2thk
      simp only [h0, ne_eq, not_true_eq_false, if_false, if_true]
      rw [h0] at ht
      rw [ht]

/-- C142, partial: thicknesses turned into depths and back: each differs from the original by less than 3/2^53 of the depth of
the bottom of its layer.  Missing: that the thicknesses come back unchanged; they do not (`C142_roundtrip_violated`). -/
theorem C142_roundtrip_partial (thk : List K) (hne : thk ≠ []) (ht : ∀ t ∈ thk, IsDouble t ∧ 0 ≤ t) :
    ∃ dep thk', fthk2dep thk = .ok dep ∧ fdep2thk dep true = .ok thk' ∧ thk'.length = thk.length ∧
      ∀ (i : ℕ) h h' z, i + 1 < thk.length → thk[i]? = some h → thk'[i]? = some h' → dep[i]? = some z →
        |h' - h| ≤ (z + h) * 3 / 2 ^ 53 := by
  obtain ⟨dep, h1, h2, h3, h4, h5⟩ := C142_sorted thk hne (fun t h => (ht t h).2)
  obtain ⟨thk', g1, g2, _⟩ := C142_thicknesses dep h3 (fun d h => (h4 d h).1) h5
  refine ⟨dep, thk', h1, g1, by rw [g2, h2], ?_⟩
  intro i h h' z hi hh hh' hz
  have hed : dep = fzTop 0 thk := by
    unfold fthk2dep at h1; rw [if_neg hne] at h1; exact (Except.ok.inj h1).symm
  have hl : i + 1 < dep.length := by omega
  have hz1 := List.getElem?_eq_getElem hl
  generalize dep[i + 1] = z1 at hz1
  have hs : z1 = fadd z h := by
    rw [hed] at hz hz1
    exact fzTop_step 0 thk i z z1 h hz hz1 hh
  have hte : thk' = fdepLoop dep := by
    cases dep with
    | nil => simp at h3
    | cons d ds =>
      simp only [List.getElem?_cons_zero, Option.some.injEq] at h3
      unfold fdep2thk at g1; simp [h3] at g1; rw [← g1, h3]
  rw [hte, fdepLoop_get dep i z z1 hz hz1, Option.some.injEq] at hh'
  have dz := h4 z (List.mem_of_getElem? hz)
  have dz1 := h4 z1 (List.mem_of_getElem? hz1)
  have dh := ht h (List.mem_of_getElem? hh)
  have r1 := fl_rel_add dz.1 dh.1
  have r2 := fl_rel_sub dz1.1 dz.1
  have hzz : z ≤ z1 := by rw [hs]; exact le_fl_of (by linarith [dh.2]) dz.1
  change fl (z1 - z) = h' at hh'
  change z1 = fl (z + h) at hs
  rw [← hs, abs_of_nonneg (add_nonneg dz.2 dh.2)] at r1
  rw [hh', abs_of_nonneg (sub_nonneg.2 hzz)] at r2
  have r1' := abs_le.1 r1
  have r2' := abs_le.1 r2
  have hS := add_nonneg dz.2 dh.2
  have hz0 := dz.2
  have hq : (z + h) / 2 ^ 53 ≤ z + h := by rw [div_le_iff₀ (by positivity)]; nlinarith [hS, (by norm_num : (1 : K) ≤ 2 ^ 53)]
  have hz1b : z1 - z ≤ 2 * (z + h) := by linarith [r1'.1]
  have hq2 : (z1 - z) / 2 ^ 53 ≤ 2 * ((z + h) / 2 ^ 53) := by
    rw [← mul_div_assoc]; exact div_le_div_of_nonneg_right hz1b (by positivity)
  have e : (z + h) * 3 / 2 ^ 53 = (z + h) / 2 ^ 53 + 2 * ((z + h) / 2 ^ 53) := by ring
  rw [e, abs_le]
  constructor <;> linarith [r1'.1, r1'.2, r2'.1, r2'.2]

/-- C142, violated: layers of 0.1 m and 0.2 m on a half-space turned into depths and back: the second thickness is not 0.2 m. -/
theorem C142_roundtrip_violated : ∃ dep thk' : List ℚ, fthk2dep [fl (1 / 10), fl (2 / 10), 0] = .ok dep ∧ fdep2thk dep true = .ok thk' ∧
    thk'[1]? ≠ some (fl (2 / 10)) := by
  refine ⟨fzTop 0 [fl (1 / 10), fl (2 / 10), 0], fdepLoop (fzTop 0 [fl (1 / 10), fl (2 / 10), 0]), ?_, ?_, ?_⟩ <;> decide +kernel

/-- C142, violated: a layer of positive thickness can disappear: below 4096 m, the top and bottom of a layer of 10^-13 m are the
same number, so that the way back gives thickness 0. -/
theorem C142_thin_layer_violated : ∃ dep thk' : List ℚ, 0 < fl (1 / 10 ^ 13 : ℚ) ∧ fthk2dep [4096, fl (1 / 10 ^ 13), 0] = .ok dep ∧
    fdep2thk dep true = .ok thk' ∧ thk'[1]? = some 0 := by
  refine ⟨fzTop 0 [4096, fl (1 / 10 ^ 13), 0], fdepLoop (fzTop 0 [4096, fl (1 / 10 ^ 13), 0]), ?_, ?_, ?_, ?_⟩ <;> decide +kernel

example : ∃ dep thk', fthk2dep [(5 : ℚ) / 2, 7, 0] = .ok dep ∧ fdep2thk dep true = .ok thk' ∧ thk'.length = 3 := by
  obtain ⟨a, b, h1, h2, h3, _⟩ := C142_roundtrip_partial [(5 : ℚ) / 2, 7, 0] (by simp) (by
    intro t ht
    simp only [List.mem_cons, List.not_mem_nil, or_false] at ht
    rcases ht with rfl | rfl | rfl
    · exact ⟨⟨5, -1, by norm_num, by norm_num, by norm_num⟩, by norm_num⟩
    · exact ⟨⟨7, 0, by norm_num, by norm_num, by norm_num⟩, by norm_num⟩
    · exact ⟨double_zero, le_refl _⟩)
  exact ⟨a, b, h1, h2, h3⟩

end Verif
