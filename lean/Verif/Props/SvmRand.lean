import Verif.Props.SvmDisc

set_option linter.unusedSectionVars false
set_option linter.unusedVariables false

/-!
Properties C52 (randomised profiles), C109 (iteration on Vs30) and C110 (compliance of randomised profiles).
-/

namespace Verif

open Spec

/-! ### C52: layering -/

section
variable {K : Type} [Field K] [LinearOrder K] [IsStrictOrderedRing K] [FloorRing K]

theorem layerLoop_started (z1 : K) (draws : List K) : ∀ (z : K) (st : Bool), (st = true → z < z1 ∨ z1 ≤ z) → z < z1 →
    z1 ≤ z + 2 * (draws.length : K) →
    ∃ raw, layerLoop z1 st z draws = some raw ∧ raw ≠ [] ∧ raw = (draws.take raw.length).map (max · 2) ∧ raw.length ≤ draws.length ∧
      z + raw.dropLast.sum < z1 ∧ z1 ≤ z + raw.sum := by
  induction draws with
  | nil => intro z st _ h1 h2; simp at h2; exact absurd h2 (not_le.2 h1)
  | cons d ds ih =>
    intro z st _ h1 h2
    rw [layerLoop, if_neg (by simp [h1])]
    have hd : (2 : K) ≤ max d 2 := le_max_right _ _
    rcases lt_or_ge (z + max d 2) z1 with hlt | hge
    · obtain ⟨raw, e, hne, htk, hl, ha, hb⟩ := ih (z + max d 2) true (by intro _; exact .inl hlt) hlt (by
        simp only [List.length_cons, Nat.cast_add, Nat.cast_one] at h2
        linarith)
      refine ⟨max d 2 :: raw, by simp [e], by simp, ?_, by simpa using hl, ?_, ?_⟩
      · simp only [List.length_cons, List.take_succ_cons, List.map_cons]
        rw [← htk]
      · rw [List.dropLast_cons_of_ne_nil hne, List.sum_cons]; linarith
      · rw [List.sum_cons]; linarith
    · have e : layerLoop z1 true (z + max d 2) ds = some [] := by
        cases ds <;> rw [layerLoop, if_pos ⟨rfl, not_lt.2 hge⟩]
      refine ⟨[max d 2], by simp [e], by simp, by simp, by simp, ?_, ?_⟩
      · simpa using h1
      · simpa using hge

/-- For every stream of random thicknesses the layering loop ends after at most `max 1 ⌈z1 / 2⌉` draws (more draws
are never looked at) and yields layers that fill the basin: at least 2 m each except the last one, which has a positive thickness,
with sum `z1`. -/
theorem C52_layering (z1 : K) (hz : 0 < z1) (draws : List K) (hd : z1 ≤ 2 * (draws.length : K)) :
    ∃ raw, layerLoop z1 false 0 draws = some raw ∧
      closeLayers z1 raw ≠ [] ∧ (closeLayers z1 raw).sum = z1 ∧ (∀ t ∈ closeLayers z1 raw, 0 < t) ∧
      (∀ t ∈ (closeLayers z1 raw).dropLast, 2 ≤ t) ∧
      (∀ (i : Nat) t, i + 1 < (closeLayers z1 raw).length → (closeLayers z1 raw)[i]? = some t →
        ∃ d, draws[i]? = some d ∧ t = max d 2) ∧
      ((closeLayers z1 raw).length : K) < z1 / 2 + 1 := by
  obtain ⟨raw, e, hne, htk, hl, ha, hb⟩ := layerLoop_started z1 draws 0 false (by simp) hz (by simpa using hd)
  rw [zero_add] at ha hb
  have h2 : ∀ t ∈ raw, 2 ≤ t := by
    intro t ht
    rw [htk] at ht
    obtain ⟨x, _, rfl⟩ := List.mem_map.1 ht
    exact le_max_right _ _
  have hdl : (closeLayers z1 raw).dropLast = raw.dropLast := by simp [closeLayers]
  refine ⟨raw, e, by simp [closeLayers], by simp [closeLayers], ?_, ?_, ?_, ?_⟩
  · intro t ht
    rcases List.mem_append.1 ht with ht | ht
    · exact lt_of_lt_of_le two_pos (h2 t (List.mem_of_mem_dropLast ht))
    · rw [List.mem_singleton.1 ht]; linarith
  · intro t ht
    rw [hdl] at ht
    exact h2 t (List.mem_of_mem_dropLast ht)
  · intro i t hi ht
    have hlen : (closeLayers z1 raw).length = raw.length := by
      have := List.length_pos_iff.2 hne
      simp [closeLayers]; omega
    have hir : i < raw.length - 1 := by omega
    unfold closeLayers at ht
    rw [List.getElem?_append_left (by simpa using hir), List.getElem?_dropLast, if_pos hir, htk, List.getElem?_map,
      List.getElem?_take, if_pos (by omega)] at ht
    cases hdi : draws[i]? with
    | none => rw [hdi] at ht; cases ht
    | some d => rw [hdi] at ht; exact ⟨d, rfl, by simpa using ht.symm⟩
  · have hsum : ∀ l : List K, (∀ t ∈ l, 2 ≤ t) → 2 * (l.length : K) ≤ l.sum := by
      intro l
      induction l with
      | nil => simp
      | cons a l ih =>
        intro h
        have h1 := h a (by simp)
        have h2 := ih (fun t ht => h t (by simp [ht]))
        simp only [List.length_cons, Nat.cast_add, Nat.cast_one, List.sum_cons]
        linarith
    have := hsum raw.dropLast (fun t ht => h2 t (List.mem_of_mem_dropLast ht))
    have hlen : (closeLayers z1 raw).length = raw.dropLast.length + 1 := by simp [closeLayers]
    rw [hlen, Nat.cast_add, Nat.cast_one]
    have h3 : 2 * (raw.dropLast.length : K) < z1 := lt_of_le_of_lt this ha
    linarith

end

example : layerLoop (10 : ℚ) false 0 [3, 1, -4, 8, 7] = some [3, 2, 2, 8] ∧ closeLayers (10 : ℚ) [3, 2, 2, 8] = [3, 2, 2, 3] := by
  decide +kernel

/-! ### C52: velocities -/

theorem toroCoef_bounds (vs30 : ℝ) : 0 ≤ (toroCoef vs30).2.1 ∧ (toroCoef vs30).2.1 ≤ 1 ∧ 0 < (toroCoef vs30).2.2.1 ∧
    0 ≤ (toroCoef vs30).2.2.2.1 ∧ (toroCoef vs30).2.2.2.1 ≤ 1 ∧ 0 ≤ (toroCoef vs30).2.2.2.2 := by
  unfold toroCoef
  split_ifs <;> norm_num

theorem rho1L_mem (vs30 zmid thk : ℝ) (hz : 0 ≤ zmid) (ht : 0 ≤ thk) : 0 ≤ rho1L vs30 zmid thk ∧ rho1L vs30 zmid thk ≤ 1 := by
  have key : ∀ rho0 delta rho200 b : ℝ, 0 ≤ rho0 → rho0 ≤ 1 → 0 < delta → 0 ≤ rho200 → rho200 ≤ 1 → 0 ≤ b →
      0 ≤ (1 - (if 200 < zmid then rho200 else rho200 * ((zmid + 0) / (200 + 0)) ^ b)) * (rho0 * Real.exp (-thk / delta))
        + (if 200 < zmid then rho200 else rho200 * ((zmid + 0) / (200 + 0)) ^ b) ∧
      (1 - (if 200 < zmid then rho200 else rho200 * ((zmid + 0) / (200 + 0)) ^ b)) * (rho0 * Real.exp (-thk / delta))
        + (if 200 < zmid then rho200 else rho200 * ((zmid + 0) / (200 + 0)) ^ b) ≤ 1 := by
    intro rho0 delta rho200 b h1 h2 h3 h4 h5 h6
    set rz := (if 200 < zmid then rho200 else rho200 * ((zmid + 0) / (200 + 0)) ^ b) with hrz
    have hr : 0 ≤ rz ∧ rz ≤ 1 := by
      rw [hrz]
      split_ifs with hc
      · exact ⟨h4, h5⟩
      · have hq : 0 ≤ (zmid + 0) / (200 + 0) := by positivity
        have hq1 : (zmid + 0) / (200 + 0) ≤ 1 := by
          rw [div_le_one (by norm_num)]; linarith [not_lt.1 hc]
        have hp := Real.rpow_nonneg hq b
        have hp1 := Real.rpow_le_one hq hq1 h6
        exact ⟨mul_nonneg h4 hp, by nlinarith⟩
    have he : 0 ≤ Real.exp (-thk / delta) := (Real.exp_pos _).le
    have he1 : Real.exp (-thk / delta) ≤ 1 := by
      rw [← Real.exp_zero]
      apply Real.exp_le_exp.2
      rw [neg_div]
      have : 0 ≤ thk / delta := div_nonneg ht h3.le
      linarith
    have hm : 0 ≤ rho0 * Real.exp (-thk / delta) := mul_nonneg h1 he
    have hm1 : rho0 * Real.exp (-thk / delta) ≤ 1 := by nlinarith
    constructor
    · have := mul_nonneg (sub_nonneg.2 hr.2) hm
      linarith [hr.1]
    · nlinarith [hr.2, hr.1]
  obtain ⟨h1, h2, h3, h4, h5, h6⟩ := toroCoef_bounds vs30
  exact key _ _ _ _ h1 h2 h3 h4 h5 h6

/-- The velocity at the layer top closest to `z`, the shallower one in case of a tie. -/
def ClosestVs (p : List (ℝ × ℝ)) (z v : ℝ) : Prop :=
  ∃ j r, p[j]? = some r ∧ r.2 = v ∧ (∀ k, k < p.length → |topDepth (p.map Prod.fst) j - z| ≤ |topDepth (p.map Prod.fst) k - z|) ∧
    ∀ k, k < j → |topDepth (p.map Prod.fst) j - z| < |topDepth (p.map Prod.fst) k - z|

theorem queryClosest_ok (p : List (ℝ × ℝ)) (hp : p ≠ []) (tops : List ℝ) (h : thk2dep (p.map Prod.fst) false = .ok tops) (z : ℝ) :
    ∃ v, queryClosest p tops z = .ok v ∧ ClosestVs p z v := by
  have hp' : p.map Prod.fst ≠ [] := by simpa using hp
  obtain ⟨dep, hd, hl, hget⟩ := C01_thk2dep_tops (p.map Prod.fst) hp'
  rw [h] at hd
  obtain rfl := Except.ok.inj hd
  rw [List.length_map] at hl hget
  have hne : tops ≠ [] := by
    rintro rfl
    exact hp (List.length_eq_zero_iff.1 hl.symm)
  obtain ⟨j, x, hf, hj, hmin, hfirst⟩ := (C66_closest tops z).2 hne
  have hjl : j < p.length := by
    by_contra hn
    rw [List.getElem?_eq_none (by omega)] at hj
    cases hj
  obtain ⟨r, hr⟩ : ∃ r, p[j]? = some r := ⟨p[j], List.getElem?_eq_getElem hjl⟩
  rw [hget j hjl] at hj
  obtain rfl := Option.some.inj hj
  refine ⟨r.2, ?_, j, r, hr, rfl, ?_, ?_⟩
  · unfold queryClosest
    rw [hf]
    dsimp only
    rw [hr]
  · intro k hk
    exact hmin _ (List.mem_of_getElem? (hget k hk))
  · intro k hk
    exact hfirst k _ hk (hget k (by omega))

/-- One velocity per layer: positive, the base velocity times a random factor, which is 1 if all normal draws are 0. -/
theorem randVs_ok (vs30 : ℝ) (toro : Bool) (p : List (ℝ × ℝ)) (hp : Valid p) (tops : List ℝ)
    (h : thk2dep (p.map Prod.fst) false = .ok tops) (l : List (ℝ × ℝ × ℝ)) : ∀ prev : Option ℝ,
    (∀ x ∈ l, 0 ≤ x.1 ∧ 0 ≤ x.2.1) →
    ∃ vs, randVs vs30 toro p tops prev l = .ok vs ∧ vs.length = l.length ∧ (∀ v ∈ vs, 0 < v) ∧
      (∀ (i : Nat) x v, l[i]? = some x → vs[i]? = some v → ∃ b y, ClosestVs p x.2.1 b ∧ v = b * Real.exp (y * sigmaLn toro vs30 b) ∧
        ((∀ y0, prev = some y0 → y0 = 0) → (∀ x ∈ l, x.2.2 = 0) → y = 0)) := by
  induction l with
  | nil => intro prev _; exact ⟨[], by rw [randVs], rfl, by simp, by intro i x v hx; simp at hx⟩
  | cons a l ih =>
    obtain ⟨thk, zmid, g⟩ := a
    intro prev hl
    obtain ⟨hthk, hzm⟩ := hl (thk, zmid, g) (by simp)
    obtain ⟨v, hv, hcl⟩ := queryClosest_ok p hp.nonempty tops h zmid
    have hvp : 0 < v := by
      obtain ⟨j, r, hj, rfl, _⟩ := hcl
      exact hp.vs_pos r (List.mem_of_getElem? hj)
    obtain ⟨hr0, hr1⟩ := rho1L_mem vs30 zmid thk hzm hthk
    have hy : ∃ y : ℝ, (match prev with
      | none => (.ok g : Except PyErr ℝ)
      | some p => if 1 - rho1L vs30 zmid thk ^ 2 < 0 then .error .nonFinite
          else .ok (rho1L vs30 zmid thk * p + g * Real.sqrt (1 - rho1L vs30 zmid thk ^ 2))) = .ok y ∧
        ((∀ y0, prev = some y0 → y0 = 0) → g = 0 → y = 0) := by
      cases prev with
      | none => exact ⟨g, rfl, fun _ hg => hg⟩
      | some q =>
        dsimp only
        rw [if_neg (by nlinarith)]
        exact ⟨_, rfl, fun hq hg => by rw [hq q rfl, hg]; ring⟩
    obtain ⟨y, hy, hy0⟩ := hy
    obtain ⟨vs, e, hlen, hpos, hprop⟩ := ih (some y) (fun x hx => hl x (by simp [hx]))
    refine ⟨v * Real.exp (y * sigmaLn toro vs30 v) :: vs, ?_, by simp [hlen], ?_, ?_⟩
    · rw [randVs]
      simp only [hv, bind, Except.bind]
      cases prev with
      | none =>
        obtain rfl := Except.ok.inj hy
        simp only [e]
        rfl
      | some q =>
        dsimp only at hy ⊢
        split_ifs at hy ⊢
        obtain rfl := Except.ok.inj hy
        simp only [e]
        rfl
    · intro w hw
      rcases List.mem_cons.1 hw with rfl | hw
      · exact mul_pos hvp (Real.exp_pos _)
      · exact hpos w hw
    · intro i x w hx hw
      cases i with
      | zero =>
        simp only [List.getElem?_cons_zero, Option.some.injEq] at hx hw
        subst hx hw
        exact ⟨v, y, hcl, rfl, fun hp0 hg => hy0 hp0 (hg (thk, zmid, g) (by simp))⟩
      | succ i =>
        simp only [List.getElem?_cons_succ] at hx hw
        obtain ⟨b, y', hb, hv', h0⟩ := hprop i x w hx hw
        refine ⟨b, y', hb, hv', fun hp0 hg => h0 ?_ (fun x hx => hg x (by simp [hx]))⟩
        intro y0 e0
        cases e0
        exact hy0 hp0 (hg (thk, zmid, g) (by simp))

/-- A randomised profile is returned for every random stream: valid, exactly `z1` deep, ending with a velocity of at least
1000 m/s; each soil layer has the base velocity closest to its middle times a random factor `exp(Y sigma)`, equal to that base
velocity if all normal draws are 0. -/
theorem C52_random_profile (s : Svm) (hp : Valid s.rows) (hz : 0 < s.z1) (toro : Bool) (draws normals : List ℝ)
    (hd : s.z1 ≤ 2 * (draws.length : ℝ)) (hn : draws.length ≤ normals.length) :
    ∃ prof soil, randProfile s toro draws normals = .ok prof ∧ Valid prof ∧ (prof.map Prod.fst).sum = s.z1 ∧
      (∃ b, prof.getLast? = some b ∧ 1000 ≤ b.2) ∧
      (prof = soil ∨ prof = soil ++ [(0, 1000)]) ∧ (soil.map Prod.fst).sum = s.z1 ∧ (∀ r ∈ soil, 0 < r.1) ∧
      (∀ r ∈ soil.dropLast, 2 ≤ r.1) ∧
      ∀ (i : Nat) r, soil[i]? = some r → ∃ b y,
        ClosestVs s.rows ((topDepth (soil.map Prod.fst) i + topDepth (soil.map Prod.fst) (i + 1)) / 2) b ∧
        r.2 = b * Real.exp (y * sigmaLn toro s.vs30 b) ∧ ((∀ g ∈ normals, g = 0) → y = 0) := by
  obtain ⟨raw, e, hne, hsum, hpos, h2, hdr, _⟩ := C52_layering s.z1 hz draws hd
  obtain ⟨raw', e', _, htk, hrl, _, _⟩ := layerLoop_started s.z1 draws 0 false (by simp) hz (by simpa using hd)
  rw [e] at e'
  obtain rfl := Option.some.inj e'
  set thk := closeLayers s.z1 raw with hthk
  have hlast : thk.getLast? ≠ some 0 := by
    intro h
    exact lt_irrefl _ (hpos 0 (List.mem_of_getLast? h))
  obtain ⟨zmid, hzm, hzl, hzget⟩ := C01_thk2dep_midpoints thk hne
  rw [if_neg hlast] at hzl
  obtain ⟨tops, htops, _⟩ := C01_thk2dep_tops (s.rows.map Prod.fst) (by simpa using hp.nonempty)
  have hthkl : thk.length ≤ normals.length := by
    have : thk.length ≤ raw.length ∨ raw = [] := by
      cases raw with
      | nil => right; rfl
      | cons a r => left; rw [hthk]; simp [closeLayers]
    rcases this with h | h
    · omega
    · subst h
      rw [hthk]
      have : 0 < draws.length := by
        by_contra hc
        have : draws.length = 0 := by omega
        rw [this] at hd; simp at hd; linarith
      simp [closeLayers]; omega
  have hnn : ∀ t ∈ thk, 0 ≤ t := fun t ht => (hpos t ht).le
  have hl3 : (thk.zip (zmid.zip normals)).length = thk.length := by
    simp [List.length_zip, hzl]; omega
  obtain ⟨vs, hvs, hvl, hvpos, hvprop⟩ := randVs_ok s.vs30 toro s.rows hp tops htops (thk.zip (zmid.zip normals)) none (by
    intro x hx
    obtain ⟨a, b, c⟩ := x
    have h3 := List.of_mem_zip hx
    have h4 := List.of_mem_zip h3.2
    refine ⟨hnn _ h3.1, ?_⟩
    obtain ⟨i, hi⟩ := List.mem_iff_getElem?.1 h4.1
    have hil : i < zmid.length := by
      by_contra hn'; rw [List.getElem?_eq_none (by omega)] at hi; cases hi
    rw [hzget i hil] at hi
    rw [← Option.some.inj hi]
    have h5 := topDepth_nonneg hnn i
    have h6 := topDepth_nonneg hnn (i + 1)
    linarith)
  rw [hl3] at hvl
  have hfst : (thk.zip vs).map Prod.fst = thk := List.map_fst_zip hvl.ge
  have hsoilpos : ∀ r ∈ thk.zip vs, 0 < r.1 := by
    intro r hr
    apply hpos
    rw [← hfst]
    exact List.mem_map_of_mem hr
  have hsoilv : ∀ r ∈ thk.zip vs, 0 < r.2 := by
    intro r hr
    apply hvpos
    have : r.2 ∈ (thk.zip vs).map Prod.snd := List.mem_map_of_mem hr
    rwa [List.map_snd_zip hvl.le] at this
  have hsne : thk.zip vs ≠ [] := by
    intro h
    apply hne
    rw [h] at hfst
    exact hfst.symm
  obtain ⟨r, hr⟩ : ∃ r, (thk.zip vs).getLast? = some r := by
    cases h : (thk.zip vs).getLast? with
    | none => exact absurd (List.getLast?_eq_none_iff.1 h) hsne
    | some r => exact ⟨r, rfl⟩
  have hrun : randProfile s toro draws normals = .ok (if r.2 < 1000 then thk.zip vs ++ [(0, 1000)] else thk.zip vs) := by
    unfold randProfile
    rw [e]
    simp only [← hthk, hzm, htops, bind, Except.bind, hvs]
    rw [if_neg (by simp [hvl])]
    simp only [hr]
    rfl
  have hsoil2 : ∀ q ∈ (thk.zip vs).dropLast, 2 ≤ q.1 := by
    intro q hq
    apply h2
    rw [← hfst, ← List.map_dropLast]
    exact List.mem_map_of_mem hq
  have hprop : ∀ (i : Nat) r, (thk.zip vs)[i]? = some r → ∃ b y,
        ClosestVs s.rows ((topDepth ((thk.zip vs).map Prod.fst) i + topDepth ((thk.zip vs).map Prod.fst) (i + 1)) / 2) b ∧
        r.2 = b * Real.exp (y * sigmaLn toro s.vs30 b) ∧ ((∀ g ∈ normals, g = 0) → y = 0) := by
    intro i q hq
    have hi : i < thk.length := by
      by_contra hn'
      rw [List.getElem?_eq_none (by simp [List.length_zip]; omega)] at hq
      cases hq
    obtain ⟨t, v, ht, hv, hqe⟩ : ∃ t v, thk[i]? = some t ∧ vs[i]? = some v ∧ q = (t, v) := by
      rw [List.getElem?_zip_eq_some] at hq
      exact ⟨q.1, q.2, hq.1, hq.2, rfl⟩
    obtain ⟨g, hg⟩ : ∃ g, normals[i]? = some g := ⟨normals[i]'(by omega), List.getElem?_eq_getElem _⟩
    have hz3 := hzget i (by omega)
    have hx : (thk.zip (zmid.zip normals))[i]? = some (t, (topDepth thk i + topDepth thk (i + 1)) / 2, g) := by
      rw [List.getElem?_zip_eq_some]
      exact ⟨ht, List.getElem?_zip_eq_some.2 ⟨hz3, hg⟩⟩
    obtain ⟨b, y, hb, hve, h0⟩ := hvprop i _ v hx hv
    rw [hfst]
    refine ⟨b, y, hb, by rw [hqe]; exact hve, fun hg0 => h0 (by simp) ?_⟩
    intro x hx
    exact hg0 _ (List.of_mem_zip (List.of_mem_zip hx).2).2
  by_cases hc : r.2 < 1000
  · rw [if_pos hc] at hrun
    refine ⟨_, thk.zip vs, hrun, ⟨by simp, ?_, ?_, ?_⟩, ?_, ⟨(0, 1000), by simp, le_rfl⟩, .inr rfl, by rw [hfst, hsum], hsoilpos, hsoil2, hprop⟩
    · intro q hq
      rw [List.dropLast_concat] at hq
      exact hsoilpos q hq
    · intro q hq
      rcases List.mem_append.1 hq with hq | hq
      · exact (hsoilpos q hq).le
      · rw [List.mem_singleton.1 hq]
    · intro q hq
      rcases List.mem_append.1 hq with hq | hq
      · exact hsoilv q hq
      · rw [List.mem_singleton.1 hq]; norm_num
    · rw [List.map_append, hfst, List.sum_append, hsum]; simp
  · rw [if_neg hc] at hrun
    refine ⟨_, thk.zip vs, hrun, ⟨hsne, fun q hq => hsoilpos q (List.mem_of_mem_dropLast hq), fun q hq => (hsoilpos q hq).le, hsoilv⟩,
      by rw [hfst, hsum], ⟨r, hr, not_lt.1 hc⟩, .inl rfl, by rw [hfst, hsum], hsoilpos, hsoil2, hprop⟩

/-- The profile of one seed becomes a `Vs_Profile` of depth `z1`. -/
theorem C52_object (s : Svm) (hp : Valid s.rows) (hz : 0 < s.z1) (toro : Bool) (draws normals : Nat → List ℝ)
    (hd : ∀ k, s.z1 ≤ 2 * ((draws k).length : ℝ)) (hn : ∀ k, (draws k).length ≤ (normals k).length) (seed : Nat) :
    ∃ o σ r5, randomized s (fun k => randProfile s toro (draws k) (normals k)) false 1 seed = .ok (some (o, σ)) ∧
      Consistent σ o r5 ∧ Constructed r5 o ∧ o.zMax = s.z1 ∧
      randProfile s toro (draws seed) (normals seed) = .ok (r5.map Row.tv) := by
  obtain ⟨prof, _, hr, hv, hsum, _⟩ := C52_random_profile s hp hz toro (draws seed) (normals seed) (hd seed) (hn seed)
  obtain ⟨o, σ, r5, hm, hc, hk, htv⟩ := profileOf [] prof hv
  refine ⟨o, σ, r5, ?_, hc, hk, ?_, by rw [hr, htv]⟩
  · rw [randomized]
    simp only [hr, bind, Except.bind]
    simp only [Bool.false_eq_true, if_false, if_true]
    have : mkProfile [Cell.two prof] 0 .one .si false 3 = .ok (o, σ) := hm
    rw [this]
    rfl
  · rw [hk.zmax, ← map_thk_of_tv, htv, hsum]

/-! ### C110: compliance -/

/-- The documented criteria, for the profile as returned (with its half space). -/
def Complies (s : Svm) (prof : List (ℝ × ℝ)) : Prop :=
  ∃ z zb r b, calcZ1 prof = .ok z ∧ calcZ1 s.rows = .ok zb ∧ prof.getLast? = some r ∧ s.rows.getLast? = some b ∧
    |30 / travelTime prof 30 - s.vs30| < 25 ∧ |r.2 - b.2| / b.2 < 5 / 100 ∧ |z - zb| / zb < 20 / 100

theorem compliant_true (s : Svm) (prof : List (ℝ × ℝ)) (hv : Valid prof) : compliant s prof = .ok true → Complies s prof := by
  intro h
  unfold compliant at h
  rw [C03_Vs30 prof hv] at h
  simp only [bind, Except.bind] at h
  cases hz : calcZ1 prof with
  | error e => rw [hz] at h; cases h
  | ok z =>
    rw [hz] at h
    dsimp only at h
    cases hzb : calcZ1 s.rows with
    | error e => rw [hzb] at h; cases h
    | ok zb =>
      rw [hzb] at h
      dsimp only at h
      cases hr : prof.getLast? with
      | none => rw [hr] at h; cases h
      | some r =>
        cases hb : s.rows.getLast? with
        | none => rw [hr, hb] at h; cases h
        | some b =>
          rw [hr, hb] at h
          dsimp only at h
          split_ifs at h
          have h' := Except.ok.inj h
          simp only [Bool.and_eq_true, decide_eq_true_eq] at h'
          exact ⟨z, zb, r, b, hz, hzb, hr, hb, h'.1.1, h'.1.2, h'.2⟩

/-- A profile returned with `vs30_z1_compliance=True` is that of the first seed whose profile meets the criteria.  Missing: a
profile need not exist (`C110_endless_violated`); the second criterion compares the half spaces, not the last soil layers. -/
theorem C110_compliance_partial (s : Svm) (gen : Nat → Except PyErr (List (ℝ × ℝ))) (hg : ∀ k prof, gen k = .ok prof → Valid prof)
    (fuel : Nat) : ∀ (k : Nat) (o : VsObj ℝ) (σ : Store ℝ), randomized s gen true fuel k = .ok (some (o, σ)) →
    ∃ j r5, k ≤ j ∧ j < k + fuel ∧ gen j = .ok (r5.map Row.tv) ∧ Consistent σ o r5 ∧ Constructed r5 o ∧
      Complies s (r5.map Row.tv) ∧ |o.vs30 - s.vs30| < 25 ∧
      ∀ i, k ≤ i → i < j → ∃ p, gen i = .ok p ∧ compliant s p = .ok false := by
  induction fuel with
  | zero => intro k o σ h; rw [randomized] at h; cases h
  | succ fuel ih =>
    intro k o σ h
    rw [randomized] at h
    cases hk : gen k with
    | error e => rw [hk] at h; cases h
    | ok prof =>
      rw [hk] at h
      simp only [bind, Except.bind, if_true] at h
      cases hc : compliant s prof with
      | error e => rw [hc] at h; cases h
      | ok b =>
        rw [hc] at h
        cases b with
        | true =>
          simp only [if_true] at h
          obtain ⟨o', σ', r5, hm, hcons, hcon, htv⟩ := profileOf [] prof (hg k prof hk)
          have hm' : mkProfile [Cell.two prof] 0 .one .si false 3 = .ok (o', σ') := hm
          rw [hm'] at h
          have h' := Except.ok.inj h
          simp only [Option.some.injEq, Prod.mk.injEq] at h'
          obtain ⟨rfl, rfl⟩ := h'
          have hcomp := compliant_true s prof (hg k prof hk) hc
          refine ⟨k, r5, le_rfl, by omega, by rw [htv, hk], hcons, hcon, by rw [htv]; exact hcomp, ?_, by intro i h1 h2; omega⟩
          obtain ⟨_, _, _, _, _, _, _, _, h30, _⟩ := hcomp
          have := hcon.vs30
          rw [htv] at this
          rw [this]
          exact h30
        | false =>
          simp only [Bool.false_eq_true, if_false] at h
          obtain ⟨j, r5, h1, h2, h3, h4, h5, h6, h7, h8⟩ := ih (k + 1) o σ h
          refine ⟨j, r5, by omega, by omega, h3, h4, h5, h6, h7, ?_⟩
          intro i hi1 hi2
          rcases Nat.eq_or_lt_of_le hi1 with rfl | hlt
          · exact ⟨prof, hk, hc⟩
          · exact h8 i hlt hi2

/-- If the last velocity of the base profile is below 1000 / 1.05 m/s (e.g. `Vs_cap=900`, or `Vs_cap=False` on soft sediments),
no randomised profile ever complies: the search never ends, whatever the random numbers. -/
theorem C110_endless_violated (s : Svm) (hp : Valid s.rows) (hz : 0 < s.z1) (b : ℝ × ℝ) (hb : s.rows.getLast? = some b)
    (hb1 : b.2 * (105 / 100) ≤ 1000) (toro : Bool) (draws normals : Nat → List ℝ)
    (hd : ∀ k, s.z1 ≤ 2 * ((draws k).length : ℝ)) (hn : ∀ k, (draws k).length ≤ (normals k).length)
    (fuel k : Nat) (r : VsObj ℝ × Store ℝ) :
    randomized s (fun k => randProfile s toro (draws k) (normals k)) true fuel k ≠ .ok (some r) := by
  intro h
  obtain ⟨o, σ⟩ := r
  have hg : ∀ k prof, randProfile s toro (draws k) (normals k) = .ok prof → Valid prof ∧ ∃ b, prof.getLast? = some b ∧ 1000 ≤ b.2 := by
    intro k prof hk
    obtain ⟨prof', _, hr, hv, _, hl, _⟩ := C52_random_profile s hp hz toro (draws k) (normals k) (hd k) (hn k)
    rw [hk] at hr
    obtain rfl := Except.ok.inj hr
    exact ⟨hv, hl⟩
  obtain ⟨j, r5, _, _, hj, _, _, hc, _⟩ := C110_compliance_partial s _ (fun k prof hk => (hg k prof hk).1) fuel k o σ h
  obtain ⟨z, zb, x, b', _, _, hx, hb', _, h2, _⟩ := hc
  rw [hb] at hb'
  obtain rfl := Option.some.inj hb'
  obtain ⟨x', hx', hx1⟩ := (hg j _ hj).2
  rw [hx] at hx'
  obtain rfl := Option.some.inj hx'
  have hbp := hp.vs_pos b (List.mem_of_getLast? hb)
  rw [div_lt_iff₀ hbp, abs_lt] at h2
  linarith [h2.2]

/-- The base profile with `Vs_cap=900` is such a case, for every Vs30, depth above 2.5 m and random stream. -/
theorem C110_endless_cap_violated (target : ℝ) (z1 : Option ℝ) (eta trial : ℝ)
    (hz : 25 / 10 < z1.getD (z1FromVs30 target)) (he0 : 0 < eta) (he1 : eta ≤ 1)
    (hv0 : 0 < trial) (hv1 : trial ≤ 2500) :
    ∃ s, mkSvm target z1 (.num 900) eta trial = .ok s ∧ ∀ (toro : Bool) (draws normals : Nat → List ℝ),
      (∀ k, s.z1 ≤ 2 * ((draws k).length : ℝ)) → (∀ k, (draws k).length ≤ (normals k).length) → ∀ fuel k r,
      randomized s (fun k => randProfile s toro (draws k) (normals k)) true fuel k ≠ .ok (some r) := by
  obtain ⟨s, ws, r5, hmk, hws, hsz, hs30, hb, hhb, hf, hsn, hwl, hval, hcons, hconstr, htv⟩ :=
    mkSvm_capped target z1 (.num 900) eta trial 900 hz he0 he1 rfl (by norm_num) (svmVs0_pos hv0 hv1)
  refine ⟨s, hmk, ?_⟩
  intro toro draws normals hd hn fuel k r
  obtain ⟨b, hbl⟩ : ∃ b, s.rows.getLast? = some b := by
    cases h : s.rows.getLast? with
    | none => exact absurd (List.getLast?_eq_none_iff.1 h) hval.nonempty
    | some b => exact ⟨b, rfl⟩
  have hb2 : b.2 = 900 := by
    have h1 : (s.rows.map Prod.snd).getLast? = some b.2 := by rw [List.getLast?_map, hbl]; rfl
    rw [hsn, ← List.cons_append, List.getLast?_concat] at h1
    exact (Option.some.inj h1).symm
  exact C110_endless_violated s hval (by rw [hsz]; linarith) b hbl (by rw [hb2]; norm_num) toro draws normals hd hn fuel k r

/-! ### C109: iteration -/

theorem svmTemp_valid {v z1 : ℝ} (hz : 25 / 10 < z1) (hv : 0 < svmVs0 v) :
    ∃ th temp, svmTemp v z1 = .ok (th, temp) ∧ Valid temp := by
  have h := svmTemp_ok (v := v) hz
  obtain ⟨hn2, _⟩ := svmCount_bounds hz
  set th : List ℝ := List.replicate (svmCount z1 - 1) (1 / 10 : ℝ) ++ [0] with hth
  have hl : th.length = (svmSmooth v z1).length := by rw [svmSmooth_length, hth]; simp; omega
  refine ⟨th, _, h, ?_⟩
  apply valid_of_columns (top := 24 / 10) (d := 1 / 10) (n := svmCount z1 - 1) (vs := svmVs0 v :: svmSmooth v z1) (by norm_num) (by norm_num)
  · rw [List.map_cons, List.map_fst_zip hl.le]
  · rw [List.map_cons, List.map_snd_zip hl.ge]
  · intro w hw
    rcases List.mem_cons.1 hw with rfl | hw
    · exact hv
    · obtain ⟨i, hi⟩ := List.mem_iff_getElem?.1 hw
      have hil : i < svmCount z1 := by
        by_contra hn'
        rw [List.getElem?_eq_none (by rw [svmSmooth_length]; omega)] at hi
        cases hi
      rw [svmSmooth_get _ _ _ hil] at hi
      rw [← Option.some.inj hi]
      have := svmAt_mono (x := 0) (y := (i : ℝ) * (1 / 10)) hv le_rfl (by positivity)
      rw [svmAt_zero] at this
      linarith

/-- With `iterate=True` the trial value of Vs30 whose smooth profile is used lies in [130, 1000] (or is the target itself), and
either this uncapped smooth profile has a Vs30 within 10 m/s of the target or the next trial value would have left [130, 1000].
The loop raises no error; that it ends is `C109_terminates`. -/
theorem C109_iteration (target z1 : ℝ) (hz : 25 / 10 < z1) (fuel : Nat) : ∀ (v : ℝ), 0 < v → v ≤ 2500 →
    ∃ res, svmIter target z1 fuel v = .ok res ∧ ∀ w, res = some w → (w = v ∨ (130 ≤ w ∧ w ≤ 1000)) ∧
      ∃ th temp, svmTemp w z1 = .ok (th, temp) ∧
        (|30 / travelTime temp 30 - target| ≤ 10 ∨
          w - (30 / travelTime temp 30 - target) / 5 < 130 ∨ 1000 < w - (30 / travelTime temp 30 - target) / 5) := by
  induction fuel with
  | zero => intro v _ _; exact ⟨none, by rw [svmIter], by simp⟩
  | succ fuel ih =>
    intro v h0 h1
    obtain ⟨th, temp, ht, hval⟩ := svmTemp_valid hz (svmVs0_pos h0 h1)
    rw [svmIter]
    simp only [ht, bind, Except.bind, C03_Vs30 temp hval]
    by_cases hc : target - 10 ≤ 30 / travelTime temp 30 ∧ 30 / travelTime temp 30 ≤ target + 10
    · rw [if_pos hc]
      refine ⟨some v, rfl, ?_⟩
      intro w hw
      cases hw
      exact ⟨.inl rfl, th, temp, ht, .inl (by rw [abs_le]; constructor <;> linarith [hc.1, hc.2])⟩
    · rw [if_neg hc]
      by_cases hc2 : v - (30 / travelTime temp 30 - target) / 5 < 130 ∨ 1000 < v - (30 / travelTime temp 30 - target) / 5
      · rw [if_pos hc2]
        refine ⟨some v, rfl, ?_⟩
        intro w hw
        cases hw
        exact ⟨.inl rfl, th, temp, ht, .inr hc2⟩
      · rw [if_neg hc2]
        simp only [not_or, not_lt] at hc2
        obtain ⟨res, hr, hp⟩ := ih (v - (30 / travelTime temp 30 - target) / 5) (by linarith [hc2.1]) (by linarith [hc2.2])
        refine ⟨res, hr, ?_⟩
        intro w hw
        obtain ⟨h3, h4⟩ := hp w hw
        refine ⟨.inr ?_, h4⟩
        rcases h3 with rfl | h3
        · exact hc2
        · exact h3

/-- A target already met ends the iteration at once. -/
theorem C109_immediate (target z1 : ℝ) (hz : 25 / 10 < z1) (fuel : Nat) (h0 : 0 < target) (h1 : target ≤ 2500)
    (th : List ℝ) (temp : List (ℝ × ℝ)) (ht : svmTemp target z1 = .ok (th, temp))
    (hc : |30 / travelTime temp 30 - target| ≤ 10) : svmIter target z1 (fuel + 1) target = .ok (some target) := by
  obtain ⟨th', temp', ht', hval⟩ := svmTemp_valid hz (svmVs0_pos h0 h1)
  rw [ht] at ht'
  obtain ⟨rfl, rfl⟩ := Prod.mk.inj (Except.ok.inj ht')
  rw [svmIter]
  simp only [ht, bind, Except.bind, C03_Vs30 temp hval]
  rw [abs_le] at hc
  rw [if_pos ⟨by linarith [hc.1], by linarith [hc.2]⟩]
  rfl

end Verif
