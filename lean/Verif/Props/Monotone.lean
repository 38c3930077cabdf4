import Verif.Props.ProfileGeometry

/-!
C199: stiffer ground has a larger VsZ and shallower bedrock; VsZ grows with Z where velocity grows with depth.
-/

set_option linter.unusedSectionVars false
set_option linter.unusedVariables false

namespace Verif

variable {K : Type} [Field K] [LinearOrder K] [IsStrictOrderedRing K]

open Spec (Valid travelTime)

/-- The same layers, with velocities at least as large in `q` as in `p`. -/
def Spec.Stiffer (p q : List (K × K)) : Prop := List.Forall₂ (fun a b => a.1 = b.1 ∧ a.2 ≤ b.2) p q

/-- Velocity does not decrease with depth. -/
def Spec.Hardening (p : List (K × K)) : Prop := (p.map Prod.snd).Pairwise (· ≤ ·)

open Spec (Stiffer Hardening)

theorem ttRec_stiffer (Z : K) : ∀ (p q : List (K × K)) (d : K), Stiffer p q → (∀ r ∈ p, 0 < r.2) → ttRec Z d q ≤ ttRec Z d p
  | [], _, d, h, hp => by cases h; exact le_rfl
  | [(t, v)], _, d, .cons (b := (t', v')) ⟨h1, h2⟩ .nil, hp => by
    have h0 := hp (t, v) (by simp)
    simp only [ttRec] at h2 h0 ⊢
    exact div_le_div_of_nonneg_left (le_max_left _ _) h0 h2
  | (t, v) :: r :: rest, _, d, .cons (b := (t', v')) ⟨h1, h2⟩ (.cons (b := r') h3 h4), hp => by
    have h0 := hp (t, v) (by simp)
    simp only at h1 h2 h0
    subst h1
    have := ttRec_stiffer Z (r :: rest) _ (d + t) (.cons h3 h4) fun x hx => hp x (List.mem_cons_of_mem _ hx)
    simp only [ttRec]
    exact add_le_add (div_le_div_of_nonneg_left (le_max_left _ _) h0 h2) this

theorem stiffer_thk {p q : List (K × K)} (h : Stiffer p q) : q.map Prod.fst = p.map Prod.fst := by
  induction h with
  | nil => rfl
  | cons h _ ih => simp [ih, h.1]

theorem stiffer_valid {p q : List (K × K)} (h : Stiffer p q) (hp : Valid p) : Valid q := by
  have ht := stiffer_thk h
  have hl : q.length = p.length := (List.Forall₂.length_eq h).symm
  have hd : q.dropLast.map Prod.fst = p.dropLast.map Prod.fst := by rw [List.map_dropLast, ht, ← List.map_dropLast]
  refine ⟨?_, ?_, ?_, ?_⟩
  · intro h0; rw [h0] at hl; exact hp.nonempty (List.eq_nil_of_length_eq_zero hl.symm)
  · intro r hr
    have : r.1 ∈ p.dropLast.map Prod.fst := hd ▸ List.mem_map_of_mem hr
    obtain ⟨s, hs, e⟩ := List.mem_map.1 this
    rw [← e]; exact hp.thk_pos s hs
  · intro r hr
    have : r.1 ∈ p.map Prod.fst := ht ▸ List.mem_map_of_mem hr
    obtain ⟨s, hs, e⟩ := List.mem_map.1 this
    rw [← e]; exact hp.thk_nonneg s hs
  · intro r hr
    obtain ⟨k, hk, rfl⟩ := List.getElem_of_mem hr
    have := List.Forall₂.get h (by omega) hk
    exact (hp.vs_pos _ (List.get_mem p ⟨k, by omega⟩)).trans_le this.2

/-- C199. Raising velocities of layers never lowers VsZ, for both options and every depth `Z`. -/
theorem C199_stiffer {p q : List (K × K)} (h : Stiffer p q) (hp : Valid p) {Z : K} (hZ : 0 < Z) :
    (∃ a b, calcVsZ p Z 1 = .ok a ∧ calcVsZ q Z 1 = .ok b ∧ a ≤ b) ∧
    (0 < (p.map Prod.fst).sum → ∃ a b, calcVsZ p Z 2 = .ok a ∧ calcVsZ q Z 2 = .ok b ∧ a ≤ b) := by
  have hq := stiffer_valid h hp
  have key : ∀ z : K, 0 < z → z / travelTime p z ≤ z / travelTime q z := by
    intro z hz
    have h1 := (C03_VsZ_option1 q hq z hz).1
    rw [travelTime_eq_ttRec] at h1 ⊢
    rw [travelTime_eq_ttRec]
    exact div_le_div_of_nonneg_left hz.le h1 (ttRec_stiffer z p q 0 h hp.vs_pos)
  refine ⟨⟨_, _, (C03_VsZ_option1 p hp Z hZ).2, (C03_VsZ_option1 q hq Z hZ).2, key Z hZ⟩, fun ht => ?_⟩
  refine ⟨_, _, C03_VsZ_option2 p hp Z hZ ht, C03_VsZ_option2 q hq Z hZ (by rw [stiffer_thk h]; exact ht), ?_⟩
  rw [stiffer_thk h]
  exact key _ (lt_min ht hZ)

theorem ttRec_ratio : ∀ (p : List (K × K)) (d Z1 Z2 : K), (∀ r ∈ p, 0 ≤ r.1) → (∀ r ∈ p, 0 < r.2) → Hardening p → d ≤ Z1 → Z1 ≤ Z2 →
    (Z1 - d) * ttRec Z2 d p ≤ (Z2 - d) * ttRec Z1 d p
  | [], d, Z1, Z2, _, _, _, _, _ => by simp [ttRec]
  | [(t, v)], d, Z1, Z2, _, hv, _, h1, h2 => by
    simp only [ttRec]
    rw [max_eq_right (by linarith), max_eq_right (by linarith)]
    apply le_of_eq; ring
  | (t, v) :: r :: rest, d, Z1, Z2, ht, hv, hh, h1, h2 => by
    have t0 : 0 ≤ t := ht (t, v) (by simp)
    have v0 : 0 < v := hv (t, v) (by simp)
    have ht' : ∀ x ∈ r :: rest, 0 ≤ x.1 := fun x hx => ht x (List.mem_cons_of_mem _ hx)
    have hv' : ∀ x ∈ r :: rest, 0 < x.2 := fun x hx => hv x (List.mem_cons_of_mem _ hx)
    have hh' : Hardening (r :: rest) := (List.pairwise_cons.1 hh).2
    have hlo : ∀ x ∈ r :: rest, v ≤ x.2 := fun x hx => (List.pairwise_cons.1 hh).1 _ (List.mem_map_of_mem hx)
    have bound : ∀ Z, d + t ≤ Z → ttRec Z (d + t) (r :: rest) ≤ (Z - (d + t)) / v := by
      intro Z hZ
      obtain ⟨hi, hhi⟩ : ∃ hi : K, ∀ x ∈ r :: rest, x.2 ≤ hi :=
        ⟨((r :: rest).map Prod.snd).sum, fun x hx => List.single_le_sum (by
          intro y hy; obtain ⟨z, hz, rfl⟩ := List.mem_map.1 hy; exact (hv' z hz).le) _ (List.mem_map_of_mem hx)⟩
      exact (ttRec_bounds Z (d + t) (r :: rest) (by simp) ht' hZ v hi v0 fun x hx => ⟨hlo x hx, hhi x hx⟩).2
    simp only [ttRec]
    by_cases c1 : d + t ≤ Z1
    · rw [min_eq_right c1, min_eq_right (c1.trans h2), add_sub_cancel_left, max_eq_right t0]
      have ih := ttRec_ratio (r :: rest) (d + t) Z1 Z2 ht' hv' hh' c1 h2
      have b1 := bound Z1 c1
      have b2 := bound Z2 (c1.trans h2)
      set T1 := ttRec Z1 (d + t) (r :: rest)
      set T2 := ttRec Z2 (d + t) (r :: rest)
      have diff : T2 - T1 ≤ (Z2 - Z1) / v := by
        rcases eq_or_lt_of_le c1 with e | hlt
        · have : T1 = 0 := ttRec_zero_of_le Z1 (d + t) _ ht' e.ge
          rw [this, sub_zero, ← e]; exact b2
        · have ha : 0 < Z1 - (d + t) := by linarith
          have e1 : (Z1 - (d + t)) * (T2 - T1) ≤ (Z2 - Z1) * T1 := by linarith
          have e2 : (Z2 - Z1) * T1 ≤ (Z2 - Z1) * ((Z1 - (d + t)) / v) := mul_le_mul_of_nonneg_left b1 (by linarith)
          have e3 : (Z1 - (d + t)) * (T2 - T1) ≤ (Z1 - (d + t)) * ((Z2 - Z1) / v) := by
            calc _ ≤ _ := e1
              _ ≤ _ := e2
              _ = _ := by ring
          exact le_of_mul_le_mul_left e3 ha
      have := mul_le_mul_of_nonneg_left diff t0
      have e4 : (Z1 - d) * (t / v + T2) = (Z1 - (d + t)) * T2 + t * T2 + (Z1 - d) * (t / v) := by ring
      have e5 : (Z2 - d) * (t / v + T1) = (Z2 - (d + t)) * T1 + t * T1 + (Z2 - d) * (t / v) := by ring
      have e6 : t * ((Z2 - Z1) / v) = (Z2 - d) * (t / v) - (Z1 - d) * (t / v) := by ring
      rw [e4, e5]
      linarith
    · push Not at c1
      rw [min_eq_left c1.le, max_eq_right (by linarith : 0 ≤ Z1 - d), ttRec_zero_of_le Z1 (d + t) _ ht' c1.le, add_zero]
      have up : max 0 (min Z2 (d + t) - d) / v + ttRec Z2 (d + t) (r :: rest) ≤ (Z2 - d) / v := by
        by_cases c2 : d + t ≤ Z2
        · rw [min_eq_right c2, add_sub_cancel_left, max_eq_right t0]
          have := bound Z2 c2
          have e : (Z2 - d) / v = t / v + (Z2 - (d + t)) / v := by ring
          rw [e]; linarith
        · push Not at c2
          rw [min_eq_left c2.le, max_eq_right (by linarith), ttRec_zero_of_le Z2 (d + t) _ ht' c2.le, add_zero]
      calc (Z1 - d) * _ ≤ (Z1 - d) * ((Z2 - d) / v) := mul_le_mul_of_nonneg_left up (by linarith)
        _ = _ := by ring

/-- C199. Where velocity does not decrease with depth, VsZ does not decrease with Z. -/
theorem C199_deeper {p : List (K × K)} (hp : Valid p) (hh : Hardening p) {Z1 Z2 : K} (h1 : 0 < Z1) (h12 : Z1 ≤ Z2) :
    ∃ a b, calcVsZ p Z1 1 = .ok a ∧ calcVsZ p Z2 1 = .ok b ∧ a ≤ b := by
  obtain ⟨t1, e1⟩ := C03_VsZ_option1 p hp Z1 h1
  obtain ⟨t2, e2⟩ := C03_VsZ_option1 p hp Z2 (h1.trans_le h12)
  refine ⟨_, _, e1, e2, ?_⟩
  rw [div_le_div_iff₀ t1 t2]
  have := ttRec_ratio p 0 Z1 Z2 hp.thk_nonneg hp.vs_pos hh h1.le h12
  rw [travelTime_eq_ttRec, travelTime_eq_ttRec]
  simpa using this

/-! ## Depth of bedrock -/

theorem basinLoop_between (v total : K) : ∀ (thk vs : List K) (z : K), (∀ t ∈ thk, 0 ≤ t) → z + thk.sum = total → thk.length = vs.length →
    z ≤ basinLoop v total ((zTop z thk).zip vs)
  | [], vs, z, _, h, _ => by simp [zTop, basinLoop]; rw [← h]; simp
  | t :: thk, [], z, _, _, hl => by simp at hl
  | t :: thk, v' :: vs, z, ht, h, hl => by
    simp only [zTop, List.zip_cons_cons, basinLoop]
    split_ifs
    · exact le_rfl
    · have := basinLoop_between v total thk vs (z + t) (fun x hx => ht x (List.mem_cons_of_mem _ hx)) (by rw [← h]; simp; ring) (by simpa using hl)
      have := ht t (by simp)
      linarith

theorem basinLoop_mono (total : K) {u v : K} (huv : u ≤ v) : ∀ (thk a b : List K) (z : K), (∀ t ∈ thk, 0 ≤ t) → z + thk.sum = total → List.Forall₂ (· ≤ ·) a b →
    thk.length = a.length → basinLoop u total ((zTop z thk).zip b) ≤ basinLoop v total ((zTop z thk).zip a)
  | [], a, b, z, _, h, _, _ => by simp [zTop, basinLoop]
  | t :: thk, _, _, z, _, _, .nil, hl => by simp at hl
  | t :: thk, x :: a, y :: b, z, ht, h, .cons h1 h2, hl => by
    have ht' : ∀ s ∈ thk, 0 ≤ s := fun s hs => ht s (List.mem_cons_of_mem _ hs)
    have hs : z + t + thk.sum = total := by rw [← h]; simp; ring
    have hl' : thk.length = a.length := by simpa using hl
    simp only [zTop, List.zip_cons_cons, basinLoop]
    by_cases c : v ≤ x
    · rw [if_pos c, if_pos (huv.trans (c.trans h1))]
    · rw [if_neg c]
      by_cases c' : u ≤ y
      · rw [if_pos c']
        have := basinLoop_between v total thk a (z + t) ht' hs hl'
        have := ht t (by simp)
        linarith
      · rw [if_neg c']
        exact basinLoop_mono total huv thk a b (z + t) ht' hs h2 hl'

/-- C199. Bedrock is not found deeper if velocities are raised or a lower velocity is taken for bedrock. -/
theorem C199_bedrock {p q : List (K × K)} (h : Stiffer p q) (hne : p ≠ []) (ht : ∀ r ∈ p, 0 ≤ r.1) {u v : K} (huv : u ≤ v) :
    ∃ a b, calcBasinDepth p v = .ok a ∧ calcBasinDepth q u = .ok b ∧ b ≤ a ∧ b ≤ (p.map Prod.fst).sum := by
  have hq : q ≠ [] := by
    intro h0; rw [h0] at h; cases h; exact hne rfl
  have e := stiffer_thk h
  have hF : List.Forall₂ (· ≤ ·) (p.map Prod.snd) (q.map Prod.snd) := by
    rw [List.forall₂_map_left_iff, List.forall₂_map_right_iff]
    exact List.Forall₂.imp (fun _ _ h => h.2) h
  have hF' : List.Forall₂ (· ≤ ·) (q.map Prod.snd) (q.map Prod.snd) := List.forall₂_refl _
  have hl : (p.map Prod.fst).length = (p.map Prod.snd).length := by simp
  have htt : ∀ t ∈ p.map Prod.fst, 0 ≤ t := by
    intro t hm; obtain ⟨r, hr, rfl⟩ := List.mem_map.1 hm; exact ht r hr
  refine ⟨basinLoop v (p.map Prod.fst).sum ((zTop 0 (p.map Prod.fst)).zip (p.map Prod.snd)),
    basinLoop u (p.map Prod.fst).sum ((zTop 0 (p.map Prod.fst)).zip (q.map Prod.snd)), ?_, ?_, ?_, ?_⟩
  · simp [calcBasinDepth, thk2dep, hne, Bind.bind, Except.bind, Pure.pure, Except.pure]
  · rw [← e]
    simp [calcBasinDepth, thk2dep, hq, Bind.bind, Except.bind, Pure.pure, Except.pure]
  · exact basinLoop_mono _ huv _ _ _ 0 htt (by simp) hF hl
  · have top : ∀ (thk vs : List K) (z : K), (∀ t ∈ thk, 0 ≤ t) → basinLoop u (z + thk.sum) ((zTop z thk).zip vs) ≤ z + thk.sum := by
      intro thk
      induction thk with
      | nil => intro vs z _; simp [zTop, basinLoop]
      | cons t thk ih =>
        intro vs z ht
        cases vs with
        | nil => simp [zTop, basinLoop]
        | cons x vs =>
          simp only [zTop, List.zip_cons_cons, basinLoop]
          have hs : 0 ≤ (t :: thk).sum := List.sum_nonneg ht
          split_ifs
          · linarith
          · have := ih vs (z + t) fun s hs => ht s (List.mem_cons_of_mem _ hs)
            rw [List.sum_cons, ← add_assoc]
            exact this
    have := top (p.map Prod.fst) (q.map Prod.snd) 0 htt
    simpa using this

/-- Two profiles of three layers. -/
example : Stiffer [((5 : ℚ), 150), (10, 300), (0, 900)] [(5, 200), (10, 300), (0, 1000)] ∧ calcVs30 [((5 : ℚ), 150), (10, 300), (0, 900)] 1 = .ok 360 ∧
    calcVs30 [((5 : ℚ), 200), (10, 300), (0, 1000)] 1 = .ok (4500 / 11) := by
  refine ⟨.cons (by norm_num) (.cons (by norm_num) (.cons (by norm_num) .nil)), ?_, ?_⟩ <;> decide +kernel

end Verif
