import Verif.Props.Svm

set_option linter.unusedSectionVars false
set_option linter.unusedVariables false

/-!
Property C51, second part: discretised profiles.
-/

namespace Verif

open Spec

section
variable {K : Type} [Field K] [LinearOrder K] [IsStrictOrderedRing K] [FloorRing K]

theorem hasAt_mem {p : List (K × K)} {z v : K} (h : HasAt p z v) : v ∈ p.map Prod.snd := by
  obtain ⟨i, _, hi⟩ := h
  exact List.mem_of_getElem? hi

/-- A profile queried with an array of thicknesses. -/
theorem queryAsProfile_ok (σ : Store K) (p : List (K × K)) (hp : Valid p) (zMax : K) (thk : List K) (mid : Bool)
    (hne : thk ≠ []) (h1 : ∀ t ∈ thk.dropLast, 0 < t) (h2 : ∀ t ∈ thk, 0 ≤ t)
    (h3 : mid = true → thk.getLast? ≠ some 0) :
    ∃ o σ' r5 vs tl, queryAsProfile σ p zMax (.array thk) mid = .ok (o, σ') ∧ Consistent σ' o r5 ∧ Constructed r5 o ∧
      r5.map Row.tv = thk.zip vs ++ tl ∧ vs.length = thk.length ∧ (∀ x ∈ tl, x.1 = 0 ∧ x.2 ∈ vs) ∧
      ∀ i, i < thk.length → ∃ v, vs[i]? = some v ∧
        HasAt p (if mid then (topDepth thk i + topDepth thk (i + 1)) / 2 else topDepth thk i) v := by
  obtain ⟨vs, hq, hl, hget⟩ := C12_query_thk_partial p hp thk hne h2 mid h3
  have hvs : ∀ v ∈ vs, 0 < v := by
    intro v hv
    obtain ⟨i, hi⟩ := List.mem_iff_getElem?.1 hv
    have hil : i < thk.length := by
      by_contra hn; rw [List.getElem?_eq_none (by omega)] at hi; cases hi
    obtain ⟨w, hw, hat⟩ := hget i hil
    rw [hw] at hi
    cases hi
    obtain ⟨r, hr, rfl⟩ := List.mem_map.1 (hasAt_mem hat)
    exact hp.vs_pos r hr
  have hval : Valid (thk.zip vs) := by
    refine ⟨?_, ?_, ?_, ?_⟩
    · intro h
      have := congrArg List.length h
      simp [List.length_zip, hl] at this
      exact hne this
    · intro r hr
      have : r.1 ∈ ((thk.zip vs).map Prod.fst).dropLast := by
        rw [← List.map_dropLast]; exact List.mem_map_of_mem hr
      rw [List.map_fst_zip hl.ge] at this
      exact h1 _ this
    · intro r hr
      have : r.1 ∈ (thk.zip vs).map Prod.fst := List.mem_map_of_mem hr
      rw [List.map_fst_zip hl.ge] at this
      exact h2 _ this
    · intro r hr
      have : r.2 ∈ (thk.zip vs).map Prod.snd := List.mem_map_of_mem hr
      rw [List.map_snd_zip hl.le] at this
      exact hvs _ this
  obtain ⟨o, σ', r5, hmk, hcons, hconstr, tl, htv, htl⟩ := profileOf_half σ _ hval
  refine ⟨o, σ', r5, vs, tl, ?_, hcons, hconstr, htv, hl, ?_, hget⟩
  · unfold queryAsProfile
    dsimp only
    rw [hq]
    simp only [bind, Except.bind]
    rw [if_neg (by simp [hl])]
    exact hmk
  · intro x hx
    obtain ⟨h0, y, hy, e⟩ := htl x hx
    refine ⟨h0, ?_⟩
    rw [e]
    have : y.2 ∈ (thk.zip vs).map Prod.snd := List.mem_map_of_mem hy
    rwa [List.map_snd_zip hl.le] at this

theorem topDepth_append_left (a b : List K) (i : Nat) (h : i ≤ a.length) : topDepth (a ++ b) i = topDepth a i := by
  unfold topDepth
  rw [List.take_append_of_le_length h]

theorem topDepth_replicate (n : Nat) (t : K) (i : Nat) (h : i ≤ n) : topDepth (List.replicate n t) i = i * t := by
  unfold topDepth
  rw [List.take_replicate, Nat.min_eq_left h, List.sum_replicate, nsmul_eq_mul]

/-- Truncating a queried profile. -/
theorem discretize_core (σ : Store K) (p : List (K × K)) (hp : Valid p) (zMax : K) (thk : List K) (mid : Bool)
    (hne : thk ≠ []) (h1 : ∀ t ∈ thk.dropLast, 0 < t) (h2 : ∀ t ∈ thk, 0 ≤ t)
    (h3 : mid = true → thk.getLast? ≠ some 0) (z1 c : K) (hz : 0 < z1) (hc : 0 < c) :
    ∃ d σ' o'  σ'' rows', queryAsProfile σ p zMax (.array thk) mid = .ok (d, σ') ∧
      truncate σ' d (some z1) (some c) = .ok (o', σ'') ∧ Consistent σ'' o' rows' ∧ Constructed rows' o' ∧ o'.zMax = z1 ∧
      (∃ b, rows'.getLast? = some b ∧ b.thk = 0 ∧ b.vs = c ∧ b.mat = 0) ∧
      (∀ z v, z < z1 → HasAt (rows'.map Row.tv) z v → v ∈ p.map Prod.snd) ∧
      ∀ i z, i < thk.length → topDepth thk i ≤ z → z < topDepth thk (i + 1) → z < z1 →
        ∃ v, HasAt (rows'.map Row.tv) z v ∧
          HasAt p (if mid then (topDepth thk i + topDepth thk (i + 1)) / 2 else topDepth thk i) v := by
  obtain ⟨d, σ', r5, vs, tl, hq, hcons, hconstr, htv, hl, htl, hget⟩ := queryAsProfile_ok σ p hp zMax thk mid hne h1 h2 h3
  obtain ⟨o', σ'', rows', m, ht, hcons', hconstr', hzm, hlast, hm, hat⟩ := C08_truncate σ' d r5 hcons hconstr.valid z1 c hz hc
  have hthk : r5.map Row.thk = thk ++ tl.map Prod.fst := by
    rw [← map_thk_of_tv, htv, List.map_append, List.map_fst_zip hl.ge]
  have hvs : r5.map Row.vs = vs ++ tl.map Prod.snd := by
    have : (r5.map Row.tv).map Prod.snd = r5.map Row.vs := by rw [List.map_map]; rfl
    rw [← this, htv, List.map_append, List.map_snd_zip hl.le]
  have hmemp : ∀ v ∈ vs, v ∈ p.map Prod.snd := by
    intro v hv
    obtain ⟨i, hi⟩ := List.mem_iff_getElem?.1 hv
    have hil : i < thk.length := by
      by_contra hn; rw [List.getElem?_eq_none (by omega)] at hi; cases hi
    obtain ⟨w, hw, hatw⟩ := hget i hil
    rw [hw] at hi
    cases hi
    exact hasAt_mem hatw
  refine ⟨d, σ', o', σ'', rows', hq, ht, hcons', hconstr', hzm, hlast, ?_, ?_⟩
  · intro z v hz1 hv
    obtain ⟨i, hci, hvi⟩ := hv
    rw [map_thk_of_tv] at hci
    have hvs' : (rows'.map Row.tv).map Prod.snd = rows'.map Row.vs := by rw [List.map_map]; rfl
    rw [hvs', List.getElem?_map] at hvi
    cases hri : rows'[i]? with
    | none => rw [hri] at hvi; cases hvi
    | some r =>
      rw [hri] at hvi
      have hvr : r.vs = v := by simpa using hvi
      have hfull : HasAt (rows'.map fun r => (r.thk, (r.vs, r.xi, r.rho, r.mat))) z (r.vs, r.xi, r.rho, r.mat) := by
        refine ⟨i, ?_, ?_⟩
        · rw [List.map_map]; exact hci
        · rw [List.map_map, List.getElem?_map, hri]; rfl
      rcases (hat z _).1 hfull with ⟨_, j, _, hj⟩ | ⟨hge, _⟩
      · rw [List.map_map, List.getElem?_map] at hj
        cases hrj : r5[j]? with
        | none => rw [hrj] at hj; cases hj
        | some q =>
          rw [hrj] at hj
          simp only [Option.map_some, Function.comp_apply, Option.some.injEq, Prod.mk.injEq] at hj
          have : q.vs ∈ r5.map Row.vs := List.mem_map_of_mem (List.mem_of_getElem? hrj)
          rw [hvs] at this
          rw [← hvr, ← hj.1]
          rcases List.mem_append.1 this with h | h
          · exact hmemp _ h
          · obtain ⟨x, hx, e⟩ := List.mem_map.1 h
            rw [← e]
            exact hmemp _ (htl x hx).2
      · exact absurd hge (not_le.2 hz1)
  · intro i z hi hlo hhi hz1
    obtain ⟨v, hv, hatv⟩ := hget i hi
    refine ⟨v, ?_, hatv⟩
    have hr5 : ∃ r, r5[i]? = some r ∧ r.vs = v := by
      have : (r5.map Row.vs)[i]? = some v := by rw [hvs, List.getElem?_append_left (by omega), hv]
      rw [List.getElem?_map] at this
      cases hri : r5[i]? with
      | none => rw [hri] at this; cases this
      | some r => rw [hri] at this; exact ⟨r, rfl, by simpa using this⟩
    obtain ⟨r, hri, hrv⟩ := hr5
    have hcont : Contains (r5.map Row.thk) i z := by
      rw [hthk]
      refine ⟨by simp; omega, ?_, ?_⟩
      · rw [topDepth_append_left _ _ _ hi.le]; exact hlo
      · intro _; rw [topDepth_append_left _ _ _ hi]; exact hhi
    have hfull : HasAt (rows'.map fun r => (r.thk, (r.vs, r.xi, r.rho, r.mat))) z (r.vs, r.xi, r.rho, renumber m r) := by
      rw [hat]
      left
      refine ⟨hz1, i, ?_, ?_⟩
      · rw [List.map_map]; exact hcont
      · rw [List.map_map, List.getElem?_map, hri]; rfl
    obtain ⟨j, hcj, hj⟩ := hfull
    refine ⟨j, ?_, ?_⟩
    · rw [List.map_map] at hcj
      rw [map_thk_of_tv]; exact hcj
    · rw [List.map_map, List.getElem?_map] at hj ⊢
      cases hrj : rows'[j]? with
      | none => rw [hrj] at hj; cases hj
      | some q =>
        rw [hrj] at hj
        simp only [Option.map_some, Function.comp_apply, Option.some.injEq, Prod.mk.injEq] at hj
        simp only [Option.map_some, Function.comp_apply, Option.some.injEq]
        rw [← hrv]
        exact hj.1

theorem queryAsProfile_scalar (σ : Store K) (p : List (K × K)) (zMax t : K) (mid : Bool) (ht : 0 < t) (hz : 0 < zMax) :
    queryAsProfile σ p zMax (.scalar t none) mid = queryAsProfile σ p zMax (.array (List.replicate ⌈zMax / t⌉.toNat t)) mid := by
  have hn : 0 < ⌈zMax / t⌉ := (C12_auto_layers zMax t hz ht).1
  have := (C12_scalar p t ⌈zMax / t⌉ mid).1 hn
  unfold queryAsProfile
  simp only [ht.ne', if_false, this]

/-- With a numeric bedrock velocity and a positive layer thickness `t` a discretised profile is returned: of depth `z1`,
over a half space with the bedrock velocity; layer `i` has the velocity of the base profile at its middle (its top for
`at_midpoint=False`).  Missing: `Vs_cap=False` (`C51_uncapped_violated`), sediments of at most 2.5 m
(`C51_one_metre_violated`). -/
theorem C51_fixed_partial (σ : Store K) (o : VsObj K) (rows : List (K × K)) (hp : Valid rows) (hzm : 0 < o.zMax)
    (z1 c t : K) (mid : Bool) (hz : 0 < z1) (hc : 0 < c) (ht : 0 < t) :
    ∃ o' σ' rows', discretize σ o rows z1 (some c) (some t) none mid = .ok (o', σ') ∧ Consistent σ' o' rows' ∧
      Constructed rows' o' ∧ o'.zMax = z1 ∧ (∃ b, rows'.getLast? = some b ∧ b.thk = 0 ∧ b.vs = c ∧ b.mat = 0) ∧
      (∀ z v, z < z1 → HasAt (rows'.map Row.tv) z v → v ∈ rows.map Prod.snd) ∧
      ∀ (i : Nat) z, (i : K) * t < o.zMax → (i : K) * t ≤ z → z < ((i : K) + 1) * t → z < z1 →
        ∃ v, HasAt (rows'.map Row.tv) z v ∧ HasAt rows (if mid then ((i : K) + 1 / 2) * t else (i : K) * t) v := by
  obtain ⟨hn, hge, hlt⟩ := C12_auto_layers o.zMax t hzm ht
  set n := ⌈o.zMax / t⌉.toNat with hndef
  have hn0 : 0 < n := by omega
  have hne : List.replicate n t ≠ [] := by intro h; have := congrArg List.length h; simp at this; omega
  have hall : ∀ x ∈ List.replicate n t, x = t := fun x hx => List.eq_of_mem_replicate hx
  obtain ⟨d, σ', o', σ'', rows', hq, htr, h1, h2, h3, h4, h5, h6⟩ := discretize_core σ rows hp o.zMax (List.replicate n t) mid hne
    (by intro x hx; rw [hall x (List.mem_of_mem_dropLast hx)]; exact ht) (by intro x hx; rw [hall x hx]; exact ht.le)
    (by intro _ h; exact ht.ne' (hall 0 (List.mem_of_getLast? h)).symm) z1 c hz hc
  refine ⟨o', σ'', rows', ?_, h1, h2, h3, h4, h5, ?_⟩
  · unfold discretize
    dsimp only
    rw [queryAsProfile_scalar σ rows o.zMax t mid ht hzm, ← hndef, hq]
    exact htr
  · intro i z hi hlo hhi hz1
    have hin : i < n := by
      have h7 : (i : K) < o.zMax / t := by rw [lt_div_iff₀ ht]; exact hi
      have h8 : (i : K) < (⌈o.zMax / t⌉ : K) := lt_of_lt_of_le h7 (Int.le_ceil _)
      have h9 : (i : ℤ) < ⌈o.zMax / t⌉ := by exact_mod_cast h8
      omega
    have e1 := topDepth_replicate n t i hin.le
    have e2 := topDepth_replicate n t (i + 1) hin
    obtain ⟨v, hv, hatv⟩ := h6 i z (by simpa using hin) (by rw [e1]; exact hlo) (by rw [e2]; push_cast; exact hhi) hz1
    refine ⟨v, hv, ?_⟩
    rw [e1, e2] at hatv
    cases mid with
    | false => simpa using hatv
    | true =>
      simp only [if_true] at hatv ⊢
      have : ((i : K) * t + ((i + 1 : ℕ) : K) * t) / 2 = ((i : K) + 1 / 2) * t := by push_cast; ring
      rwa [this] at hatv

/-- Exactly one of thickness and velocity increment must be given. -/
theorem C51_arguments (σ : Store K) (o : VsObj K) (rows : List (K × K)) (z1 : K) (b : Option K) (t i : K) (mid : Bool) :
    discretize σ o rows z1 b none none mid = .error .valueError ∧
    discretize σ o rows z1 b (some t) (some i) mid = .error .valueError := ⟨rfl, rfl⟩

/-- Without a bedrock velocity (`Vs_cap=False`) no discretised profile is ever returned. -/
theorem C51_uncapped_violated (σ : Store K) (o : VsObj K) (rows : List (K × K)) (z1 : K) (t i : Option K) (mid : Bool)
    (r : VsObj K × Store K) : discretize σ o rows z1 none t i mid ≠ .ok r := by
  intro h
  have htr : ∀ σ' d, truncate σ' d (some z1) (none : Option K) = .error .valueError :=
    fun σ' d => C08_truncate_rejects σ' d _ _ (.inr (by intro v hv; cases hv))
  unfold discretize at h
  cases t with
  | none =>
    cases i with
    | none => cases h
    | some i =>
      dsimp only at h
      cases hi : incThk rows i with
      | error e => rw [hi] at h; cases h
      | ok thk =>
        rw [hi] at h
        simp only [bind, Except.bind] at h
        cases hq : queryAsProfile σ rows o.zMax (.array thk) mid with
        | error e => rw [hq] at h; cases h
        | ok x => rw [hq] at h; simp only [htr] at h; cases h
  | some t =>
    cases i with
    | some i => cases h
    | none =>
      dsimp only at h
      simp only [bind, Except.bind] at h
      cases hq : queryAsProfile σ rows o.zMax (.scalar t none) mid with
      | error e => rw [hq] at h; cases h
      | ok x => rw [hq] at h; simp only [htr] at h; cases h

/-! ### Velocity increments -/

theorem dep2thkLoop_cons_ne (d : K) (l : List K) : dep2thkLoop (d :: l) ≠ [] := dep2thkLoop_ne_nil d l

theorem bottoms_thk (inc : K) (rows : List (K × K)) : ∀ (prev tmp depth z : K), z ≤ depth → (∀ r ∈ rows.dropLast, 0 < r.1) →
    (∀ r ∈ rows, 0 ≤ r.1) →
    (∀ t ∈ (dep2thkLoop (z :: bottomsLoop inc prev tmp depth rows)).dropLast, 0 ≤ t) ∧
    (∀ t ∈ (dep2thkLoop (z :: bottomsLoop inc prev tmp depth rows)).dropLast.dropLast, 0 < t) := by
  induction rows with
  | nil => intro prev tmp depth z _ _ _; simp [bottomsLoop, dep2thkLoop]
  | cons r rest ih =>
    obtain ⟨t, v⟩ := r
    intro prev tmp depth z hz hpos hnn
    have ht : 0 ≤ t := hnn (t, v) (by simp)
    have hpos' : ∀ r ∈ rest.dropLast, 0 < r.1 := by
      intro r hr
      apply hpos r
      cases rest with
      | nil => simp at hr
      | cons a rest => simp [hr]
    have hnn' : ∀ r ∈ rest, 0 ≤ r.1 := fun r hr => hnn r (by simp [hr])
    rw [bottomsLoop]
    by_cases hcut : v < prev + inc
    · rw [if_pos hcut]
      exact ih prev (tmp + t) (depth + t) z (by linarith) hpos' hnn'
    · rw [if_neg hcut, dep2thkLoop]
      set L := bottomsLoop inc (if tmp ≠ 0 then prev + inc else v) 0 (depth + t) rest with hL
      obtain ⟨i1, i2⟩ := ih (if tmp ≠ 0 then prev + inc else v) 0 (depth + t) (depth + t) le_rfl hpos' hnn'
      rw [← hL] at i1 i2
      have hne := dep2thkLoop_cons_ne (depth + t) L
      rw [List.dropLast_cons_of_ne_nil hne]
      constructor
      · intro x hx
        rcases List.mem_cons.1 hx with rfl | hx
        · linarith
        · exact i1 x hx
      · intro x hx
        by_cases hd : (dep2thkLoop ((depth + t) :: L)).dropLast = []
        · rw [hd] at hx; simp at hx
        · rw [List.dropLast_cons_of_ne_nil hd] at hx
          rcases List.mem_cons.1 hx with rfl | hx
          · have htp : 0 < t := by
              apply hpos (t, v)
              cases rest with
              | nil => exfalso; rw [hL, bottomsLoop, dep2thkLoop] at hd; simp at hd
              | cons a rest => simp
            linarith
          · exact i2 x hx

theorem incThk_shape {rows : List (K × K)} (hp : Valid rows) {inc : K} {thk : List K} (h : incThk rows inc = .ok thk) :
    (∀ t ∈ thk, 0 ≤ t) ∧ (∀ t ∈ thk.dropLast, 0 < t) := by
  unfold incThk at h
  cases rows with
  | nil => cases h
  | cons r rest =>
    dsimp only at h
    split_ifs at h
    unfold dep2thk at h
    simp only [ne_eq, not_true_eq_false, if_false, Bool.false_eq_true] at h
    have := Except.ok.inj h
    rw [← this]
    exact bottoms_thk inc (r :: rest) r.2 0 0 0 le_rfl hp.thk_pos hp.thk_nonneg

/-- With a velocity increment that yields layers, the last of which is not empty (or `at_midpoint=False`), a profile of
depth `z1` over the bedrock is returned, with velocities of the base profile. -/
theorem C51_increment_partial (σ : Store K) (o : VsObj K) (rows : List (K × K)) (hp : Valid rows)
    (z1 c inc : K) (mid : Bool) (hz : 0 < z1) (hc : 0 < c) (thk : List K) (ht : incThk rows inc = .ok thk) (hne : thk ≠ [])
    (hlast : mid = true → thk.getLast? ≠ some 0) :
    ∃ o' σ' rows', discretize σ o rows z1 (some c) none (some inc) mid = .ok (o', σ') ∧ Consistent σ' o' rows' ∧
      Constructed rows' o' ∧ o'.zMax = z1 ∧ (∃ b, rows'.getLast? = some b ∧ b.thk = 0 ∧ b.vs = c ∧ b.mat = 0) ∧
      ∀ z v, z < z1 → HasAt (rows'.map Row.tv) z v → v ∈ rows.map Prod.snd := by
  obtain ⟨hnn, hpos⟩ := incThk_shape hp ht
  obtain ⟨d, σ', o', σ'', rows', hq, htr, h1, h2, h3, h4, h5, h6⟩ := discretize_core σ rows hp o.zMax thk mid hne hpos hnn hlast z1 c hz hc
  refine ⟨o', σ'', rows', ?_, h1, h2, h3, h4, h5⟩
  unfold discretize
  dsimp only
  rw [ht]
  simp only [bind, Except.bind]
  rw [hq]
  exact htr

/-- If the increment leaves an empty last layer, the default `at_midpoint=True` ends in a ValueError. -/
theorem increment_empty_last (σ : Store K) (o : VsObj K) (rows : List (K × K)) (hp : Valid rows)
    (z1 inc : K) (b : Option K) (thk : List K) (ht : incThk rows inc = .ok thk) (hlast : thk.getLast? = some 0) :
    discretize σ o rows z1 b none (some inc) true = .error .valueError := by
  obtain ⟨hnn, hpos⟩ := incThk_shape hp ht
  have hne : thk ≠ [] := by rintro rfl; simp at hlast
  obtain ⟨dep, hd, hdl, hget⟩ := C01_thk2dep_midpoints thk hne
  rw [if_pos hlast] at hdl
  have hlen := List.length_pos_iff.2 hne
  obtain ⟨out, ho, hF⟩ := C02_query_depth rows hp dep (by
    intro z hz
    obtain ⟨i, hi⟩ := List.mem_iff_getElem?.1 hz
    have hil : i < dep.length := by
      by_contra hn; rw [List.getElem?_eq_none (by omega)] at hi; cases hi
    rw [hget i hil] at hi
    rw [← Option.some.inj hi]
    have h1 := topDepth_nonneg hnn i
    have h2 := topDepth_nonneg hnn (i + 1)
    linarith)
  have hq : queryVsGivenThk rows (.array thk) true = .ok (out, thk) := by
    simp [queryVsGivenThk, thkArray, hd, ho, bind, Except.bind, pure, Except.pure]
  unfold discretize
  dsimp only
  rw [ht]
  simp only [bind, Except.bind, queryAsProfile, hq]
  rw [if_pos (by rw [← hF.length_eq, hdl]; omega)]

/-- If no layer exceeds the first one by the increment, an IndexError results although the increment is below the maximum
velocity, as required. -/
theorem increment_too_large (σ : Store K) (o : VsObj K) (r : K × K) (rest : List (K × K)) (z1 inc : K) (b : Option K) (mid : Bool)
    (h1 : inc < rest.foldl (fun m q => max m q.2) r.2) (h2 : ∀ q ∈ r :: rest, q.2 < r.2 + inc) :
    discretize σ o (r :: rest) z1 b none (some inc) mid = .error .indexError := by
  have hb : ∀ (l : List (K × K)) (tmp depth : K), (∀ q ∈ l, q.2 < r.2 + inc) → bottomsLoop inc r.2 tmp depth l = [] := by
    intro l
    induction l with
    | nil => intro tmp depth _; rfl
    | cons q l ih =>
      intro tmp depth hq
      obtain ⟨t, v⟩ := q
      rw [bottomsLoop, if_pos (hq (t, v) (by simp))]
      exact ih _ _ (fun q hq' => hq q (by simp [hq']))
  have hi : incThk (r :: rest) inc = .ok [] := by
    unfold incThk
    dsimp only
    rw [if_neg (not_le.2 h1), hb _ 0 0 h2]
    simp [dep2thk, dep2thkLoop]
  unfold discretize
  dsimp only
  rw [hi]
  rfl

end

/-! ### Discretised profiles of the sediment velocity model -/

/-- `SVM(...).get_discretized_profile(fixed_thk=t)` on sediments deeper than 2.5 m with a cap. -/
theorem C51_svm_fixed (target : ℝ) (z1 : Option ℝ) (cap : CapArg) (eta trial c : ℝ)
    (hz : 25 / 10 < z1.getD (z1FromVs30 target)) (he0 : 0 < eta) (he1 : eta ≤ 1) (hcap : cap.val = some c)
    (hv0 : 0 < trial) (hv1 : trial ≤ 2500) (hc : 0 < c) (t : ℝ) (ht : 0 < t) (mid : Bool) :
    ∃ s o' σ' rows', mkSvm target z1 cap eta trial = .ok s ∧
      discretize s.store s.obj s.rows s.z1 s.bedrock.asVs (some t) none mid = .ok (o', σ') ∧
      Consistent σ' o' rows' ∧ Constructed rows' o' ∧ o'.zMax = s.z1 ∧
      ∃ b, rows'.getLast? = some b ∧ b.thk = 0 ∧ b.vs = c ∧ b.mat = 0 := by
  obtain ⟨s, ws, r5, hmk, hws, hsz, hs30, hb, hhb, hf, hsn, hwl, hval, hcons, hconstr, htv⟩ :=
    mkSvm_capped target z1 cap eta trial c hz he0 he1 hcap hc (svmVs0_pos hv0 hv1)
  have hz' : 25 / 10 < s.z1 := by rw [hsz]; exact hz
  obtain ⟨hn2, hle, hlt⟩ := svmCount_bounds hz'
  have hthk : r5.map Row.thk = s.rows.map Prod.fst := by rw [← map_thk_of_tv, htv]
  have hzm : 0 < s.obj.zMax := by
    rw [hconstr.zmax, hthk, hf, sum_svm_thk _ (by omega)]
    have : (2 : ℝ) ≤ svmCount s.z1 := by exact_mod_cast hn2
    linarith
  obtain ⟨o', σ', rows', h1, h2, h3, h4, h5, _⟩ := C51_fixed_partial s.store s.obj s.rows hval hzm s.z1 c t mid
    (by linarith) hc ht
  exact ⟨s, o', σ', rows', hmk, by rw [hb]; exact h1, h2, h3, h4, h5⟩

/-- On sediments of at most 2.5 m with the default cap the discretised profile rests on a half space of 1 m/s. -/
theorem C51_one_metre_violated (target : ℝ) (z1 : Option ℝ) (eta trial : ℝ)
    (hz0 : 0 < z1.getD (z1FromVs30 target)) (hz : z1.getD (z1FromVs30 target) ≤ 25 / 10) (he0 : 0 < eta) (he1 : eta ≤ 1)
    (hv0 : 0 < target) (hv1 : target ≤ 2500) (t : ℝ) (ht : 0 < t) (mid : Bool) :
    ∃ s o' σ' rows', mkSvm target z1 .yes eta trial = .ok s ∧
      discretize s.store s.obj s.rows s.z1 s.bedrock.asVs (some t) none mid = .ok (o', σ') ∧
      Consistent σ' o' rows' ∧ ∃ b, rows'.getLast? = some b ∧ b.thk = 0 ∧ b.vs = 1 := by
  obtain ⟨s, r5, hmk, hsz, hrows, hb, hval, hcons, hconstr, htv⟩ :=
    mkSvm_shallow target z1 .yes eta trial hz0 hz he0 he1 hv0 hv1
  have hthk : r5.map Row.thk = s.rows.map Prod.fst := by rw [← map_thk_of_tv, htv]
  have hzp : 0 < s.z1 := by rw [hsz]; exact hz0
  have hzm : 0 < s.obj.zMax := by
    rw [hconstr.zmax, hthk, hrows]; simpa using hzp
  obtain ⟨o', σ', rows', h1, h2, h3, h4, ⟨b, e1, e2, e3, _⟩, _⟩ := C51_fixed_partial s.store s.obj s.rows hval hzm s.z1 1 t mid
    hzp one_pos ht
  exact ⟨s, o', σ', rows', hmk, by rw [hb]; exact h1, h2, b, e1, e2, e3⟩

theorem foldl_max_ge (l : List (ℝ × ℝ)) : ∀ (a : ℝ), a ≤ l.foldl (fun m q => max m q.2) a ∧
    ∀ q ∈ l, q.2 ≤ l.foldl (fun m q => max m q.2) a := by
  induction l with
  | nil => intro a; exact ⟨le_rfl, by simp⟩
  | cons b l ih =>
    intro a
    obtain ⟨h1, h2⟩ := ih (max a b.2)
    rw [List.foldl_cons]
    refine ⟨(le_max_left _ _).trans h1, ?_⟩
    intro q hq
    rcases List.mem_cons.1 hq with rfl | hq
    · exact (le_max_right _ _).trans h1
    · exact h2 q hq

/-- For every increment between `c - Vs0` and the maximum velocity `c` an IndexError results. -/
theorem C51_large_increment_violated (target : ℝ) (z1 : Option ℝ) (cap : CapArg) (eta trial c : ℝ)
    (hz : 25 / 10 < z1.getD (z1FromVs30 target)) (he0 : 0 < eta) (he1 : eta ≤ 1) (hcap : cap.val = some c)
    (hv0 : 0 < trial) (hv1 : trial ≤ 2500) (hc : svmVs0 trial ≤ c * eta) (inc : ℝ) (hi1 : c - svmVs0 trial < inc) (hi2 : inc < c)
    (mid : Bool) :
    ∃ s, mkSvm target z1 cap eta trial = .ok s ∧ (∃ r ∈ s.rows, inc < r.2) ∧
      discretize s.store s.obj s.rows s.z1 s.bedrock.asVs none (some inc) mid = .error .indexError := by
  obtain ⟨s, hmk, hval, _, hle, hhead, hlast, _⟩ := C50_capped_partial target z1 cap eta trial c hz he0 he1 hcap hv0 hv1 (.inl hc)
  refine ⟨s, hmk, ⟨(0, c), List.mem_of_getLast? hlast, hi2⟩, ?_⟩
  cases hr : s.rows with
  | nil => rw [hr] at hhead; cases hhead
  | cons r rest =>
    rw [hr] at hhead hlast hle
    have hr0 : r = (24 / 10, svmVs0 trial) := by simpa using hhead
    apply increment_too_large
    · have : (0, c) ∈ rest := by
        have hm := List.mem_of_getLast? hlast
        rcases List.mem_cons.1 hm with h | h
        · exfalso
          rw [hr0] at h
          have := congrArg Prod.fst h
          norm_num at this
        · exact h
      exact lt_of_lt_of_le hi2 ((foldl_max_ge rest r.2).2 _ this)
    · intro q hq
      have := hle q hq
      rw [hr0]
      linarith

/-- Such increments exist, e.g. 900 m/s for Vs30 = 200 m/s (maximum velocity 1000 m/s). -/
example : ∃ s, mkSvm 200 (some 100) .yes (9 / 10) 200 = .ok s ∧
    discretize s.store s.obj s.rows s.z1 s.bedrock.asVs none (some 900) true = .error .indexError := by
  obtain ⟨s, h, _, h'⟩ := C51_large_increment_violated 200 (some 100) .yes (9 / 10) 200 1000 (by simp; norm_num)
    (by norm_num) (by norm_num) rfl (by norm_num) (by norm_num) (by unfold svmVs0; norm_num) 900 (by unfold svmVs0; norm_num)
    (by norm_num) true
  exact ⟨s, h, h'⟩

/-- An increment for which the last soil layer and the half space are both cut off leaves an empty layer, and the request
fails: SVM(200, z1=2.65) and an increment of the velocity step from 2.4 m to 2.5 m. -/
theorem C51_small_increment_violated :
    ∃ (s : Svm) (inc : ℝ), mkSvm 200 (some (265 / 100)) .yes (9 / 10) 200 = .ok s ∧ 0 < inc ∧ inc < 100 ∧
      discretize s.store s.obj s.rows s.z1 s.bedrock.asVs none (some inc) true = .error .valueError := by
  have hz : (25 / 10 : ℝ) < (some (265 / 100 : ℝ)).getD (z1FromVs30 200) := by simp; norm_num
  have hv := svmVs0_pos (v := 200) (by norm_num) (by norm_num)
  have e0 : svmVs0 200 = 1644168 / 10000 := by unfold svmVs0; norm_num
  obtain ⟨s, ws, r5, hmk, hws, hsz, hs30, hb, hhb, hf, hsn, hwl, hval, hcons, hconstr, htv⟩ :=
    mkSvm_capped 200 (some (265 / 100)) .yes (9 / 10) 200 1000 hz (by norm_num) (by norm_num) rfl (by norm_num) hv
  have hsz' : s.z1 = 265 / 100 := by rw [hsz]; rfl
  have hn : svmCount s.z1 = 3 := by
    rw [hsz']
    unfold svmCount
    rw [Nat.ceil_eq_iff (by norm_num)]
    norm_num
  -- the exponent is negative, so `k ≤ 1`
  have hk : svmK 200 ≤ 1 := by
    unfold svmK
    rw [← Real.exp_zero]
    apply Real.exp_le_exp.2
    have h1 : (1 / 5 : ℝ) ≤ (200 : ℝ) ^ (-2722 / 10000 : ℝ) := by
      have h2 : (200 : ℝ) ^ (-(3 / 10) : ℝ) ≤ (200 : ℝ) ^ (-2722 / 10000 : ℝ) :=
        Real.rpow_le_rpow_of_exponent_le (by norm_num) (by norm_num)
      have h3 : (1 / 5 : ℝ) ≤ (200 : ℝ) ^ (-(3 / 10) : ℝ) := by
        rw [Real.rpow_neg (by norm_num)]
        have h4 : (200 : ℝ) ^ (3 / 10 : ℝ) ≤ 5 := by
          have h5 : ((200 : ℝ) ^ (3 / 10 : ℝ)) ^ (10 : ℕ) = 200 ^ (3 : ℕ) := by
            rw [← Real.rpow_natCast, ← Real.rpow_mul (by norm_num), ← Real.rpow_natCast]
            norm_num
          by_contra hgt
          have h6 : (5 : ℝ) ^ (10 : ℕ) < ((200 : ℝ) ^ (3 / 10 : ℝ)) ^ (10 : ℕ) :=
            pow_lt_pow_left₀ (not_le.1 hgt) (by norm_num) (by norm_num)
          rw [h5] at h6
          norm_num at h6
        rw [one_div]
        exact inv_anti₀ (by positivity) h4
      exact h3.trans h2
    linarith
  have hat : ∀ i : ℕ, i ≤ 2 → svmAt 200 ((i : ℝ) * (1 / 10)) ≤ svmVs0 200 * (12 / 10) := by
    intro i hi
    unfold svmAt
    apply mul_le_mul_of_nonneg_left _ hv.le
    have hkp := svmK_pos 200
    have hi' : (i : ℝ) ≤ 2 := by exact_mod_cast hi
    have h1 : 1 + svmK 200 * ((i : ℝ) * (1 / 10)) ≤ 12 / 10 := by
      have : svmK 200 * ((i : ℝ) * (1 / 10)) ≤ 1 * (2 * (1 / 10)) := by
        apply mul_le_mul hk _ (by positivity) (by norm_num)
        linarith
      linarith
    have h2 : (1 : ℝ) ≤ 1 + svmK 200 * ((i : ℝ) * (1 / 10)) := by
      have : 0 ≤ svmK 200 * ((i : ℝ) * (1 / 10)) := by positivity
      linarith
    calc (1 + svmK 200 * ((i : ℝ) * (1 / 10))) ^ (1 / svmN 200)
        ≤ (1 + svmK 200 * ((i : ℝ) * (1 / 10))) ^ (1 : ℝ) :=
          Real.rpow_le_rpow_of_exponent_le h2 (by
            rw [div_le_one (lt_of_lt_of_le one_pos (svmN_ge 200))]; exact svmN_ge 200)
      _ = 1 + svmK 200 * ((i : ℝ) * (1 / 10)) := Real.rpow_one _
      _ ≤ 12 / 10 := h1
  -- nothing is capped
  have hwsm : ws = svmSmooth 200 s.z1 := by
    rw [← hsz] at hws
    unfold capVs at hws
    rw [if_neg] at hws
    · exact (Except.ok.inj hws).symm
    · rw [List.any_eq_true]
      rintro ⟨x, hx, hgt⟩
      obtain ⟨i, hi⟩ := List.mem_iff_getElem?.1 hx
      have hil : i < svmCount s.z1 := by
        by_contra hn'
        rw [List.getElem?_eq_none (by rw [svmSmooth_length]; omega)] at hi
        cases hi
      rw [svmSmooth_get _ _ _ hil] at hi
      have := hat i (by omega)
      rw [Option.some.inj hi, e0] at this
      simp only [decide_eq_true_eq] at hgt
      linarith
  set a := svmVs0 200 with ha
  set b := svmAt 200 (1 * (1 / 10)) with hbdef
  have hab : a < b := by
    rw [ha, ← svmAt_zero, hbdef]
    exact svmAt_strict hv le_rfl (by norm_num)
  have hb12 : b ≤ a * (12 / 10) := by
    have := hat 1 (by norm_num)
    rwa [Nat.cast_one] at this
  have hwl3 : ws.dropLast = [a, b] := by
    have h0 := svmSmooth_get 200 s.z1 0 (by omega)
    have h1 := svmSmooth_get 200 s.z1 1 (by omega)
    rw [Nat.cast_zero, zero_mul, svmAt_zero, ← hwsm] at h0
    rw [Nat.cast_one, ← hwsm] at h1
    rw [hn] at hwl
    match ws, hwl, h0, h1 with
    | [x, y, w], _, h0, h1 =>
      simp only [List.getElem?_cons_zero, List.getElem?_cons_succ, Option.some.injEq] at h0 h1
      rw [h0, h1]
      rfl
  have hrows : s.rows = [(24 / 10, a), (1 / 10, a), (1 / 10, b), (0, 1000)] := by
    rw [hwl3] at hsn
    rw [hn] at hf
    simp only [Nat.reduceSub, List.replicate_succ, List.replicate_zero, List.cons_append, List.nil_append] at hf hsn
    have := List.zip_of_prod (l := s.rows.map Prod.fst) (l' := s.rows.map Prod.snd) (xs := s.rows) rfl rfl
    rw [this, hf, hsn]
    rfl
  refine ⟨s, b - a, hmk, by linarith, by rw [e0] at hb12; linarith, ?_⟩
  have hthk : incThk s.rows (b - a) = .ok [26 / 10, 0] := by
    rw [hrows]
    unfold incThk
    dsimp only
    have hmax : ¬ List.foldl (fun m (r : ℝ × ℝ) => max m r.2) a [(1 / 10, a), (1 / 10, b), (0, 1000)] ≤ b - a := by
      have := (foldl_max_ge [(1 / 10, a), (1 / 10, b), (0, (1000 : ℝ))] a).2 (0, 1000) (by simp)
      rw [not_le]
      rw [e0] at hb12
      have : (1000 : ℝ) ≤ List.foldl (fun m (r : ℝ × ℝ) => max m r.2) a [(1 / 10, a), (1 / 10, b), (0, 1000)] := this
      linarith
    rw [if_neg hmax]
    have hbl : bottomsLoop (b - a) a 0 0 [(24 / 10, a), (1 / 10, a), (1 / 10, b), (0, 1000)] = [26 / 10, 26 / 10] := by
      rw [bottomsLoop, if_pos (by linarith), bottomsLoop, if_pos (by linarith), bottomsLoop, if_neg (by linarith),
        if_pos (by norm_num), bottomsLoop, if_neg (by rw [e0] at hb12; linarith)]
      simp only [bottomsLoop]
      norm_num
    rw [hbl]
    simp [dep2thk, dep2thkLoop]
  exact increment_empty_last s.store s.obj s.rows hval s.z1 (b - a) _ _ hthk rfl

end Verif
