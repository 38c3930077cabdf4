import Verif.Model.Profile
import Verif.Spec.Profile
import Mathlib.Algebra.Order.BigOperators.Group.List

set_option linter.unusedSectionVars false

namespace Verif

open Spec

variable {K : Type*} [Field K] [LinearOrder K]

section NoOrder

theorem zTop_length (z : K) (l : List K) : (zTop z l).length = l.length := by
  induction l generalizing z with
  | nil => rfl
  | cons t ts ih => simp [zTop, ih]

theorem zTop_getElem? (z : K) (l : List K) (i : Nat) (h : i < l.length) :
    (zTop z l)[i]? = some (z + topDepth l i) := by
  induction l generalizing z i with
  | nil => simp at h
  | cons t ts ih =>
    cases i with
    | zero => simp [zTop, topDepth]
    | succ i =>
      simp only [List.length_cons, Nat.add_lt_add_iff_right] at h
      simp [zTop, ih (z + t) i h, topDepth, add_assoc]

theorem dep2thkLoop_zTop (z : K) (l : List K) (h : l ≠ []) :
    dep2thkLoop (zTop z l) = l.dropLast ++ [0] := by
  induction l generalizing z with
  | nil => exact absurd rfl h
  | cons t ts ih =>
    cases ts with
    | nil => simp [zTop, dep2thkLoop]
    | cons t' ts' =>
      have := ih (z + t) (by simp)
      simp only [zTop] at this ⊢
      simp [dep2thkLoop, this]

theorem zTop_dep2thkLoop (d : K) (ds : List K) :
    zTop d (dep2thkLoop (d :: ds)) = d :: ds := by
  induction ds generalizing d with
  | nil => simp [dep2thkLoop, zTop]
  | cons d' ds ih => simp [dep2thkLoop, zTop, ih]

theorem dep2thkLoop_ne_nil (d : K) (ds : List K) : dep2thkLoop (d :: ds) ≠ [] := by
  cases ds <;> simp [dep2thkLoop]

theorem zMid_getElem? (z : K) (l : List K) (i : Nat) (h : i + 1 < l.length ∨ (i + 1 = l.length ∧ l.getLast? ≠ some 0)) :
    (zMid z l)[i]? = some (z + topDepth l i + l.getD i 0 / 2) := by
  induction l generalizing z i with
  | nil => simp at h
  | cons t ts ih =>
    cases ts with
    | nil =>
      simp only [List.length_cons, List.length_nil] at h
      have hi : i = 0 := by omega
      subst hi
      have ht : t ≠ 0 := by
        rcases h with h | h
        · omega
        · simpa using h.2
      simp [zMid, topDepth, ht]
    | cons t' ts' =>
      cases i with
      | zero => simp [zMid, topDepth]
      | succ i =>
        have h' : i + 1 < (t' :: ts').length ∨ (i + 1 = (t' :: ts').length ∧ (t' :: ts').getLast? ≠ some 0) := by
          rcases h with h | ⟨h1, h2⟩
          · left; simpa using h
          · right; refine ⟨by simpa using h1, ?_⟩
            simpa [List.getLast?_cons_cons] using h2
        simp [zMid, ih (z + t) i h', topDepth, add_assoc]

theorem zMid_length (z : K) (l : List K) :
    (zMid z l).length = if l.getLast? = some 0 then l.length - 1 else l.length := by
  induction l generalizing z with
  | nil => simp [zMid]
  | cons t ts ih =>
    cases ts with
    | nil => by_cases h : t = 0 <;> simp [zMid, h]
    | cons t' ts' =>
      simp only [zMid, List.length_cons, ih (z + t), List.getLast?_cons_cons]
      split <;> simp

theorem topDepth_succ (l : List K) (i : Nat) : topDepth l (i + 1) = topDepth l i + l.getD i 0 := by
  unfold topDepth
  by_cases h : i < l.length
  · rw [List.take_succ_eq_append_getElem h]; simp [h]
  · rw [List.take_of_length_le (by omega), List.take_of_length_le (by omega)]
    simp [List.getElem?_eq_none (by omega : l.length ≤ i)]

theorem topDepth_cons_succ (t : K) (l : List K) (i : Nat) :
    topDepth (t :: l) (i + 1) = t + topDepth l i := by simp [topDepth]

@[simp] theorem topDepth_zero (l : List K) : topDepth l 0 = 0 := by simp [topDepth]

end NoOrder

variable [IsStrictOrderedRing K]

/-- Thickness lists of valid profiles. -/
structure ThkOK (l : List K) : Prop where
  ne : l ≠ []
  pos : ∀ t ∈ l.dropLast, 0 < t
  nonneg : ∀ t ∈ l, 0 ≤ t

theorem Spec.Valid.thkOK {p : List (K × K)} (h : Valid p) : ThkOK (p.map Prod.fst) where
  ne := by simpa using h.nonempty
  pos := by
    intro t ht
    rw [← List.map_dropLast] at ht
    obtain ⟨r, hr, rfl⟩ := List.mem_map.1 ht
    exact h.thk_pos r hr
  nonneg := by
    intro t ht
    obtain ⟨r, hr, rfl⟩ := List.mem_map.1 ht
    exact h.thk_nonneg r hr

theorem ThkOK.tail {t t' : K} {l : List K} (h : ThkOK (t :: t' :: l)) : ThkOK (t' :: l) where
  ne := by simp
  pos := fun x hx => h.pos x (by simp [List.dropLast, hx])
  nonneg := fun x hx => h.nonneg x (List.mem_cons_of_mem _ hx)

theorem ThkOK.head_pos {t t' : K} {l : List K} (h : ThkOK (t :: t' :: l)) : 0 < t :=
  h.pos t (by simp [List.dropLast])

theorem topDepth_nonneg {l : List K} (h : ∀ t ∈ l, 0 ≤ t) (i : Nat) : 0 ≤ topDepth l i :=
  List.sum_nonneg fun x hx => h x (List.mem_of_mem_take hx)

/-- Key lemma for depth queries: the number of layer tops at or above `z`. -/
theorem count_zTop (z0 z : K) (l : List K) (h : ThkOK l) (hz : z0 ≤ z) :
    ∃ i, searchsortedRight (zTop z0 l) z = i + 1 ∧ Contains l i (z - z0) := by
  induction l generalizing z0 with
  | nil => exact absurd rfl h.ne
  | cons t ts ih =>
    cases ts with
    | nil =>
      refine ⟨0, ?_, ?_, ?_, ?_⟩
      · simp [searchsortedRight, zTop, hz]
      · simp
      · simpa [topDepth] using hz
      · simp
    | cons t' ts' =>
      by_cases hc : z0 + t ≤ z
      · obtain ⟨i, hi, hlt, htop, hbot⟩ := ih (z0 + t) h.tail hc
        refine ⟨i + 1, ?_, ?_, ?_, ?_⟩
        · unfold searchsortedRight at hi ⊢
          rw [zTop, List.filter_cons_of_pos (by simpa using hz), List.length_cons, hi]
        · simpa using hlt
        · rw [topDepth_cons_succ]; linarith
        · intro hl
          rw [topDepth_cons_succ]
          have := hbot (by simpa using hl)
          linarith
      · refine ⟨0, ?_, ?_, ?_, ?_⟩
        · have hnil : ∀ (w : K) (m : List K), z < w → (∀ x ∈ m, 0 ≤ x) →
              (zTop w m).filter (fun x => decide (x ≤ z)) = [] := by
            intro w m
            induction m generalizing w with
            | nil => intros; simp [zTop]
            | cons a m ihm =>
              intro hw hm
              have ha : 0 ≤ a := hm a (by simp)
              rw [zTop, List.filter_cons_of_neg (by simpa using hw)]
              exact ihm (w + a) (by linarith) (fun x hx => hm x (by simp [hx]))
          unfold searchsortedRight
          rw [zTop, List.filter_cons_of_pos (by simpa using hz), List.length_cons,
            hnil (z0 + t) _ (not_le.1 hc) h.tail.nonneg]
          rfl
        · simp
        · simpa [topDepth] using hz
        · intro _; simp [topDepth]; linarith [not_le.1 hc]

theorem topDepth_mono {l : List K} (h : ∀ t ∈ l, 0 ≤ t) {i j : Nat} (hij : i ≤ j) :
    topDepth l i ≤ topDepth l j := by
  induction j with
  | zero => simp [Nat.le_zero.1 hij]
  | succ j ih =>
    rcases Nat.lt_or_ge i (j + 1) with hlt | hge
    · rw [topDepth_succ]
      have := ih (by omega)
      have h0 : 0 ≤ l.getD j 0 := by
        by_cases hj : j < l.length
        · simpa [hj] using h l[j] (List.getElem_mem hj)
        · simp [List.getElem?_eq_none (by omega : l.length ≤ j)]
      linarith
    · have : i = j + 1 := by omega
      simp [this]

theorem contains_unique {l : List K} (h : ∀ t ∈ l, 0 ≤ t) {z : K} {i j : Nat}
    (hi : Contains l i z) (hj : Contains l j z) : i = j := by
  by_contra hne
  rcases Nat.lt_or_gt_of_ne hne with hlt | hlt
  · have h1 := hi.2.2 (by have := hj.1; omega)
    have h2 := topDepth_mono h (show i + 1 ≤ j from hlt)
    exact absurd (lt_of_lt_of_le h1 h2) (not_lt.2 hj.2.1)
  · have h1 := hj.2.2 (by have := hi.1; omega)
    have h2 := topDepth_mono h (show j + 1 ≤ i from hlt)
    exact absurd (lt_of_lt_of_le h1 h2) (not_lt.2 hi.2.1)

/-! ### Travel time -/

/-- Recursive form of the specification's travel time, started at depth `d`. -/
def ttRec (Z : K) : K → List (K × K) → K
  | _, [] => 0
  | d, [(_, v)] => max 0 (Z - d) / v
  | d, (t, v) :: r :: rest => max 0 (min Z (d + t) - d) / v + ttRec Z (d + t) (r :: rest)

theorem ttRec_eq_sum (Z d : K) (p : List (K × K)) :
    ttRec Z d p = ∑ i ∈ Finset.range p.length,
      (if i + 1 < p.length then
        max 0 (min Z (d + topDepth (p.map Prod.fst) (i + 1)) - (d + topDepth (p.map Prod.fst) i))
      else max 0 (Z - (d + topDepth (p.map Prod.fst) i))) / ((p.map Prod.snd).getD i 0) := by
  induction p generalizing d with
  | nil => simp [ttRec]
  | cons r rest ih =>
    obtain ⟨t, v⟩ := r
    cases rest with
    | nil => simp [ttRec, topDepth]
    | cons r' rest' =>
      rw [ttRec, List.length_cons, Finset.sum_range_succ', ih (d + t), add_comm]
      congr 1
      · apply Finset.sum_congr rfl
        intro i _
        simp only [List.map_cons, topDepth_cons_succ t, List.length_cons, Nat.add_lt_add_iff_right,
          List.getD_cons_succ]
        simp only [← add_assoc]
      · simp [topDepth]

theorem travelTime_eq_ttRec (p : List (K × K)) (Z : K) : travelTime p Z = ttRec Z 0 p := by
  rw [ttRec_eq_sum]; unfold travelTime overlap
  simp

theorem ttRec_zero_of_le (Z d : K) (p : List (K × K)) (hp : ∀ r ∈ p, 0 ≤ r.1) (h : Z ≤ d) :
    ttRec Z d p = 0 := by
  induction p generalizing d with
  | nil => rfl
  | cons r rest ih =>
    obtain ⟨t, v⟩ := r
    have ht : 0 ≤ t := hp (t, v) (by simp)
    cases rest with
    | nil => simp [ttRec, max_eq_left (sub_nonpos.2 h)]
    | cons r' rest' =>
      rw [ttRec, ih (d + t) (fun r hr => hp r (by simp [hr])) (by linarith)]
      rw [min_eq_left (by linarith), max_eq_left (sub_nonpos.2 h)]; simp

theorem cumulSl_eq (Z d acc : K) (p : List (K × K)) (hp : ∀ r ∈ p, 0 ≤ r.1) (hd : d < Z) (hne : p ≠ []) :
    cumulSl Z d acc p + (if d + (p.map Prod.fst).sum < Z then
        1 / (p.getLast hne).2 * (Z - (d + (p.map Prod.fst).sum)) else 0)
      = acc + ttRec Z d p := by
  induction p generalizing d acc with
  | nil => exact absurd rfl hne
  | cons r rest ih =>
    obtain ⟨t, v⟩ := r
    have ht : 0 ≤ t := hp (t, v) (by simp)
    have hrest : ∀ r ∈ rest, 0 ≤ r.1 := fun r hr => hp r (by simp [hr])
    have hsum : 0 ≤ (rest.map Prod.fst).sum :=
      List.sum_nonneg (by intro x hx; obtain ⟨r, hr, rfl⟩ := List.mem_map.1 hx; exact hrest r hr)
    by_cases hc : d + t < Z
    · cases rest with
      | nil =>
        simp only [cumulSl, hc, if_true, List.map_cons, List.map_nil, List.sum_cons, List.sum_nil,
          add_zero, List.getLast_singleton, ttRec]
        rw [max_eq_right (by linarith)]; ring
      | cons r' rest' =>
        have := ih (d + t) (acc + 1 / v * t) hrest hc (by simp)
        simp only [cumulSl, hc, if_true, ttRec]
        rw [List.getLast_cons (by simp)]
        rw [show d + (((t, v) :: r' :: rest').map Prod.fst).sum
          = d + t + ((r' :: rest').map Prod.fst).sum by simp [add_assoc]]
        simp only [cumulSl] at this
        rw [this, min_eq_right hc.le, max_eq_right (by linarith)]; ring
    · have hcl : Z ≤ d + t := not_lt.1 hc
      have hns : ¬ d + (((t, v) :: rest).map Prod.fst).sum < Z := by
        simp only [List.map_cons, List.sum_cons]; linarith
      simp only [cumulSl, hc, if_false, hns, add_zero]
      cases rest with
      | nil => simp only [ttRec]; rw [max_eq_right (by linarith)]; ring
      | cons r' rest' =>
        rw [ttRec, ttRec_zero_of_le Z (d + t) _ hrest hcl, min_eq_left hcl,
          max_eq_right (by linarith)]; ring

theorem ttRec_bounds (Z d : K) (p : List (K × K)) (hne : p ≠ []) (hp : ∀ r ∈ p, 0 ≤ r.1)
    (hd : d ≤ Z) (lo hi : K) (hlo : 0 < lo) (hv : ∀ r ∈ p, lo ≤ r.2 ∧ r.2 ≤ hi) :
    (Z - d) / hi ≤ ttRec Z d p ∧ ttRec Z d p ≤ (Z - d) / lo := by
  induction p generalizing d with
  | nil => exact absurd rfl hne
  | cons r rest ih =>
    obtain ⟨t, v⟩ := r
    have ht : 0 ≤ t := hp (t, v) (by simp)
    obtain ⟨hv1, hv2⟩ := hv (t, v) (by simp)
    simp only at hv1 hv2
    have hvpos : 0 < v := lt_of_lt_of_le hlo hv1
    have hhi : 0 < hi := lt_of_lt_of_le hvpos hv2
    have key : ∀ x : K, 0 ≤ x → x / hi ≤ x / v ∧ x / v ≤ x / lo := fun x hx =>
      ⟨div_le_div_of_nonneg_left hx hvpos hv2, div_le_div_of_nonneg_left hx hlo hv1⟩
    cases rest with
    | nil =>
      rw [ttRec, max_eq_right (by linarith)]
      exact key _ (by linarith)
    | cons r' rest' =>
      have hrest : ∀ r ∈ r' :: rest', 0 ≤ r.1 := fun r hr => hp r (by simp [hr])
      have hvr : ∀ r ∈ r' :: rest', lo ≤ r.2 ∧ r.2 ≤ hi := fun r hr => hv r (by simp [hr])
      rw [ttRec]
      by_cases hc : d + t ≤ Z
      · obtain ⟨h1, h2⟩ := ih (d + t) (by simp) hrest hc hvr
        rw [min_eq_right hc, max_eq_right (by linarith)]
        obtain ⟨k1, k2⟩ := key (d + t - d) (by linarith)
        have e1 : (Z - d) / hi = (d + t - d) / hi + (Z - (d + t)) / hi := by ring
        have e2 : (Z - d) / lo = (d + t - d) / lo + (Z - (d + t)) / lo := by ring
        constructor <;> linarith
      · rw [ttRec_zero_of_le Z (d + t) _ hrest (by linarith), min_eq_left (by linarith),
          max_eq_right (by linarith), add_zero]
        exact key _ (by linarith)

theorem ttRec_pos (Z d : K) (p : List (K × K)) (hne : p ≠ []) (hp : ∀ r ∈ p, 0 ≤ r.1)
    (hv : ∀ r ∈ p, 0 < r.2) (hd : d < Z) : 0 < ttRec Z d p := by
  induction p generalizing d with
  | nil => exact absurd rfl hne
  | cons r rest ih =>
    obtain ⟨t, v⟩ := r
    have ht : 0 ≤ t := hp (t, v) (by simp)
    have hvp : 0 < v := hv (t, v) (by simp)
    cases rest with
    | nil =>
      rw [ttRec, max_eq_right (by linarith)]
      exact div_pos (by linarith) hvp
    | cons r' rest' =>
      have hrest : ∀ r ∈ r' :: rest', 0 ≤ r.1 := fun r hr => hp r (by simp [hr])
      have hvr : ∀ r ∈ r' :: rest', 0 < r.2 := fun r hr => hv r (by simp [hr])
      rw [ttRec]
      by_cases hc : d + t < Z
      · have := ih (d + t) (by simp) hrest hvr hc
        have h0 : 0 ≤ max 0 (min Z (d + t) - d) / v := div_nonneg (le_max_left _ _) hvp.le
        linarith
      · rw [ttRec_zero_of_le Z (d + t) _ hrest (by linarith), min_eq_left (by linarith),
          max_eq_right (by linarith), add_zero]
        exact div_pos (by linarith) hvp

/-- Splitting any layer into two of the same velocity leaves travel times unchanged. -/
theorem ttRec_split (Z d : K) (pre post : List (K × K)) (a b v : K)
    (hpre : ∀ r ∈ pre, 0 ≤ r.1) (ha : 0 ≤ a) (hb : 0 ≤ b) :
    ttRec Z d (pre ++ (a, v) :: (b, v) :: post) = ttRec Z d (pre ++ (a + b, v) :: post) := by
  induction pre generalizing d with
  | nil =>
    simp only [List.nil_append]
    cases post with
    | nil =>
      simp only [ttRec, ← add_div]
      congr 1
      rcases le_total Z d with h | h
      · rw [max_eq_left (by linarith : Z - d ≤ 0), min_eq_left (by linarith : Z ≤ d + a),
          max_eq_left (by linarith), max_eq_left (by linarith)]; simp
      · rw [max_eq_right (by linarith : 0 ≤ Z - d)]
        rcases le_total Z (d + a) with h' | h'
        · rw [min_eq_left h', max_eq_right (by linarith), max_eq_left (by linarith)]; ring
        · rw [min_eq_right h', max_eq_right (by linarith), max_eq_right (by linarith)]; ring
    | cons r post =>
      simp only [ttRec]
      rw [← add_assoc, ← add_div, show d + a + b = d + (a + b) by ring]
      congr 2
      rcases le_total Z d with h | h
      · rw [min_eq_left (by linarith : Z ≤ d + a), min_eq_left (by linarith : Z ≤ d + (a + b)),
          max_eq_left (by linarith), max_eq_left (by linarith)]; simp
      · rcases le_total Z (d + a) with h' | h'
        · rw [min_eq_left h', min_eq_left (by linarith : Z ≤ d + (a + b)), max_eq_right (by linarith),
            max_eq_left (by linarith)]; ring
        · rw [min_eq_right h', max_eq_right (by linarith)]
          rcases le_total Z (d + (a + b)) with h'' | h''
          · rw [min_eq_left h'', max_eq_right (by linarith), max_eq_right (by linarith)]; ring
          · rw [min_eq_right h'', max_eq_right (by linarith), max_eq_right (by linarith)]; ring
  | cons r pre ih =>
    obtain ⟨t, w⟩ := r
    have := ih (d + t) (fun r hr => hpre r (by simp [hr]))
    cases pre with
    | nil => simp only [List.cons_append, List.nil_append] at this ⊢; simp only [ttRec] at this ⊢; rw [this]
    | cons r' pre' => simp only [List.cons_append] at this ⊢; rw [ttRec, ttRec, this]

end Verif
