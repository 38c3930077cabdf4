import Verif.Props.VsProfile
import Verif.Props.ProfileGeometry
import Verif.Props.MotionTrunc
import Verif.Proof.Stratify

/-!
C220: carrying out the same operation a second time changes nothing.
-/

set_option linter.unusedSectionVars false
set_option linter.unusedVariables false

namespace Verif

open Spec

section
variable {K : Type} [_root_.Field K] [LinearOrder K] [IsStrictOrderedRing K] [FloorRing K]

/-! ### Re-discretisation -/

theorem stratifyLayer_thin {P : Type*} (s : LRow K P) (h : s.thk ≤ s.vs / 225) : stratifyLayer s = [s] := by
  unfold stratifyLayer
  rw [if_pos h]

theorem flatMap_self {α : Type*} {f : α → List α} : ∀ (l : List α), (∀ s ∈ l, f s = [s]) → l.flatMap f = l
  | [], _ => rfl
  | a :: l, h => by
    rw [List.flatMap_cons, h a List.mem_cons_self, flatMap_self l fun s hs => h s (List.mem_cons_of_mem _ hs)]
    rfl

theorem stratified_thin {P : Type*} (l : List (LRow K P)) (h : ∀ r ∈ l, 0 < r.thk ∧ 0 < r.vs) :
    ∀ s ∈ l.flatMap stratifyLayer, 0 < s.thk ∧ stratifyLayer s = [s] := by
  intro s hs
  obtain ⟨r, hr, hs⟩ := List.mem_flatMap.1 hs
  obtain ⟨_, h2, _⟩ := stratifyLayer_spec r (h r hr).1 (h r hr).2
  obtain ⟨e1, _, e3, e4⟩ := h2 s hs
  exact ⟨e3, stratifyLayer_thin s (by rw [e1]; exact e4)⟩

/-- C220, re-discretisation: the layers obtained are thin enough, a second call returns them as they are. -/
theorem C220_stratify {P : Type*} (rows : List (LRow K P)) (h : ValidRows rows) : stratify (stratify rows) = stratify rows := by
  obtain ⟨hne, hpos, hall⟩ := h
  obtain ⟨last, hlast⟩ : ∃ last, rows.getLast? = some last := ⟨_, List.getLast?_eq_getLast_of_ne_nil hne⟩
  have hm : last ∈ rows := List.mem_of_getLast? hlast
  have e1 : stratify rows = if last.thk = 0 then rows.dropLast.flatMap stratifyLayer ++ [last] else rows.flatMap stratifyLayer := by
    unfold stratify; rw [hlast]
  by_cases h0 : last.thk = 0
  · rw [if_pos h0] at e1
    have ht := stratified_thin rows.dropLast fun r hr => ⟨hpos r hr, (hall r (List.dropLast_subset rows hr)).2⟩
    rw [e1]
    unfold stratify
    rw [List.getLast?_append]
    simp only [List.getLast?_singleton, Option.some_or]
    rw [if_pos h0, List.dropLast_concat, flatMap_self _ fun s hs => (ht s hs).2]
  · rw [if_neg h0] at e1
    have hp : ∀ r ∈ rows, 0 < r.thk ∧ 0 < r.vs := by
      intro r hr
      refine ⟨?_, (hall r hr).2⟩
      rw [← List.dropLast_append_getLast hne] at hr
      rcases List.mem_append.1 hr with hr | hr
      · exact hpos r hr
      · rw [List.getLast?_eq_getLast_of_ne_nil hne] at hlast
        rw [List.mem_singleton.1 hr, Option.some.inj hlast]
        exact lt_of_le_of_ne (hall last hm).1 (Ne.symm h0)
    have ht := stratified_thin rows hp
    rw [e1]
    unfold stratify
    cases hg : (rows.flatMap stratifyLayer).getLast? with
    | none => exact (List.getLast?_eq_none_iff.1 hg).symm
    | some s =>
      simp only
      rw [if_neg (ht s (List.mem_of_getLast? hg)).1.ne', flatMap_self _ fun s hs => (ht s hs).2]

/-! ### Truncation of profiles -/

/-- C220, truncation of a profile: truncating once more at the same depth, with the same rock, gives the same ground. -/
theorem C220_truncate (σ : Store K) (o : VsObj K) (rows : List (Row K)) (hc : Consistent σ o rows) (hv : Valid5 rows)
    (depth Vs : K) (hd : 0 < depth) (hV : 0 < Vs) :
    ∃ o' σ' rows' o₂ σ₂ rows₂, truncate σ o (some depth) (some Vs) = .ok (o', σ') ∧ Consistent σ' o' rows' ∧
      truncate σ' o' (some depth) (some Vs) = .ok (o₂, σ₂) ∧ Consistent σ₂ o₂ rows₂ ∧ o₂.zMax = o'.zMax ∧
      ∀ z x, HasAt (rows₂.map fun r => (r.thk, (r.vs, r.xi, r.rho, r.mat))) z x ↔
        HasAt (rows'.map fun r => (r.thk, (r.vs, r.xi, r.rho, r.mat))) z x := by
  obtain ⟨o', σ', rows', m, h1, h2, h3, h4, ⟨b, hb, hb0, hbv, hbm⟩, hm, h5⟩ := C08_truncate σ o rows hc hv depth Vs hd hV
  obtain ⟨o₂, σ₂, rows₂, m₂, g1, g2, g3, g4, _, _, g5⟩ := C08_truncate σ' o' rows' h2 h3.valid depth Vs hd hV
  refine ⟨o', σ', rows', o₂, σ₂, rows₂, h1, h2, g1, g2, by rw [g4, h4], fun z x => ?_⟩
  have hne := h3.valid.nonempty
  have hsplit : rows' = rows'.dropLast ++ [b] := by
    rw [List.getLast?_eq_getLast_of_ne_nil hne] at hb
    conv_lhs => rw [← List.dropLast_append_getLast hne]
    rw [Option.some.inj hb]
  -- above the rock the numbers of the materials are kept
  have key : z < depth → (HasAt (rows'.map fun r => (r.thk, (r.vs, r.xi, r.rho, renumber m₂ r))) z x ↔
      HasAt (rows'.map fun r => (r.thk, (r.vs, r.xi, r.rho, r.mat))) z x) := by
    intro hz
    unfold HasAt
    refine exists_congr fun i => ?_
    simp only [List.map_map]
    have et : (Prod.fst ∘ fun r : Row K => (r.thk, (r.vs, r.xi, r.rho, renumber m₂ r))) =
        (Prod.fst ∘ fun r : Row K => (r.thk, (r.vs, r.xi, r.rho, r.mat))) := rfl
    rw [et]
    refine and_congr_right fun hci => ?_
    have hi : i < rows'.dropLast.length := by
      by_contra hi
      have hl : rows'.length = rows'.dropLast.length + 1 := by
        have := List.length_pos_of_ne_nil hne
        rw [List.length_dropLast]; omega
      have hi' := hci.1
      rw [List.length_map] at hi'
      have : i = rows'.dropLast.length := by omega
      have htop := hci.2.1
      have e : topDepth (rows'.map (Prod.fst ∘ fun r : Row K => (r.thk, (r.vs, r.xi, r.rho, r.mat)))) i = depth := by
        rw [← h4, h3.zmax]
        show ((rows'.map Row.thk).take i).sum = _
        rw [this]
        conv_lhs => rw [hsplit]
        conv_rhs => rw [hsplit]
        simp [hb0]
      rw [e] at htop
      exact absurd hz (not_lt.2 htop)
    rw [List.getElem?_map, List.getElem?_map]
    have hr : rows'[i]? = rows'.dropLast[i]? := by
      conv_lhs => rw [hsplit]
      rw [List.getElem?_append_left hi]
    rw [hr, List.getElem?_eq_getElem hi]
    have hmat := h3.valid.mat_pos _ (List.getElem_mem hi)
    simp only [Option.map_some, Function.comp, renumber, if_neg hmat.ne']
  rw [g5 z x]
  constructor
  · rintro (⟨hz, hx⟩ | ⟨hz, hx⟩)
    · exact (key hz).1 hx
    · exact (h5 z x).2 (.inr ⟨hz, hx⟩)
  · intro hx
    rcases lt_or_ge z depth with hz | hz
    · exact .inl ⟨hz, (key hz).2 hx⟩
    · rcases (h5 z x).1 hx with ⟨hz', _⟩ | h
      · exact absurd hz' (not_lt.2 hz)
      · exact .inr h

/-! ### Velocities for given thicknesses -/

/-- C220, re-sampled profiles: asked for the velocities of the same layers, the re-sampled profile (on any half space) returns its own velocities. -/
theorem C220_query (p : List (K × K)) (hp : Valid p) (thk : List K) (hne : thk ≠ []) (ht : ∀ t ∈ thk, 0 < t) (mid : Bool)
    (vs : List K) (h : queryVsGivenThk p (.array thk) mid = .ok (vs, thk)) (b : K) (hb : 0 < b) :
    queryVsGivenThk (thk.zip vs ++ [(0, b)]) (.array thk) mid = .ok (vs, thk) := by
  have hl0 : mid = true → thk.getLast? ≠ some 0 := fun _ h0 => (ht 0 (List.mem_of_getLast? h0)).ne' rfl
  obtain ⟨vs₁, e1, hlen, hat⟩ := C12_query_thk_partial p hp thk hne (fun t h => (ht t h).le) mid hl0
  have : vs₁ = vs := (Prod.mk.inj (Except.ok.inj (e1.symm.trans h))).1
  subst this
  have hvpos : ∀ v ∈ vs₁, 0 < v := by
    intro v hv
    obtain ⟨i, hi, rfl⟩ := List.getElem_of_mem hv
    obtain ⟨w, hw, hA⟩ := hat i (by omega)
    rw [List.getElem?_eq_getElem hi] at hw
    obtain ⟨j, _, hj⟩ := hA
    rw [Option.some.inj hw]
    obtain ⟨q, hq, hqw⟩ := List.mem_map.1 (List.mem_of_getElem? hj)
    rw [← hqw]
    exact hp.vs_pos q hq
  have hp' : Valid (thk.zip vs₁ ++ [(0, b)]) := by
    refine ⟨by simp, ?_, ?_, ?_⟩
    · intro r hr
      rw [List.dropLast_concat] at hr
      exact ht _ (List.of_mem_zip hr).1
    · intro r hr
      rcases List.mem_append.1 hr with hr | hr
      · exact (ht _ (List.of_mem_zip hr).1).le
      · rw [List.mem_singleton.1 hr]
    · intro r hr
      rcases List.mem_append.1 hr with hr | hr
      · exact hvpos _ (List.of_mem_zip hr).2
      · rw [List.mem_singleton.1 hr]; exact hb
  obtain ⟨vs₂, e2, hlen2, hat2⟩ := C12_query_thk_partial (thk.zip vs₁ ++ [(0, b)]) hp' thk hne (fun t h => (ht t h).le) mid hl0
  rw [e2]
  congr 2
  have hmf : (thk.zip vs₁ ++ [(0, b)]).map Prod.fst = thk ++ [0] := by
    rw [List.map_append, List.map_fst_zip (by omega)]; rfl
  have hms : (thk.zip vs₁ ++ [(0, b)]).map Prod.snd = vs₁ ++ [b] := by
    rw [List.map_append, List.map_snd_zip (by omega)]; rfl
  refine List.ext_getElem? fun i => ?_
  by_cases hi : i < thk.length
  · obtain ⟨v, hv, j, hj, hjv⟩ := hat2 i hi
    rw [hv]
    have hti : ∀ k, k ≤ thk.length → topDepth (thk ++ [0]) k = topDepth thk k := by
      intro k hk
      unfold topDepth
      rw [List.take_append_of_le_length hk]
    have hstep : topDepth thk i < topDepth thk (i + 1) := by
      unfold topDepth
      rw [List.take_succ_eq_append_getElem hi, List.sum_append]
      simpa using ht _ (List.getElem_mem hi)
    have hci : Contains (thk ++ [0]) i (if mid then (topDepth thk i + topDepth thk (i + 1)) / 2 else topDepth thk i) := by
      refine ⟨by simp; omega, ?_, fun _ => ?_⟩
      · rw [hti i (by omega)]
        split
        · rw [le_div_iff₀ two_pos]; linarith
        · exact le_rfl
      · rw [hti (i + 1) (by omega)]
        split
        · rw [div_lt_iff₀ two_pos]; linarith
        · exact hstep
    rw [hmf] at hj
    have hnn : ∀ t ∈ thk ++ [0], 0 ≤ t := by
      intro t h
      rcases List.mem_append.1 h with h | h
      · exact (ht t h).le
      · rw [List.mem_singleton.1 h]
    have := contains_unique hnn hci hj
    subst this
    rw [hms, List.getElem?_append_left (by omega)] at hjv
    exact hjv.symm
  · rw [List.getElem?_eq_none (by omega), List.getElem?_eq_none (by omega)]

/-! ### Motions -/

/-- C220, scaling: a motion scaled to a (positive) peak acceleration and scaled to the same peak once more is the same record. -/
theorem C220_scale (σ : CStore K) (m : Motion K) (c p : K) (hp0 : 0 < p) (h2 : 2 ≤ (m.accel.read σ).length)
    (hp : m.pga = maxAbs (vals (m.accel.read σ))) (h0 : m.pga ≠ 0) :
    ∃ m' τ m₂ τ₂, scaleMotion σ m c (some p) = (.ok m', τ) ∧ scaleMotion τ m' c (some p) = (.ok m₂, τ₂) ∧
      m₂.accel.read τ₂ = m'.accel.read τ := by
  obtain ⟨m', τ, k, e1, e2, _, e4⟩ := C25_target σ m c p h2 hp h0
  rw [abs_of_pos hp0] at e4
  have hl : 2 ≤ (m'.accel.read τ).length := by rw [e2, List.length_map]; exact h2
  obtain ⟨m₂, τ₂, f1, f2, _⟩ := C25_factor τ m' 1 hl
  refine ⟨m', τ, m₂, τ₂, e1, ?_, ?_⟩
  · unfold scaleMotion at f1 ⊢
    simp only at f1 ⊢
    rw [e4, if_neg hp0.ne', div_self hp0.ne']
    exact f1
  · rw [f2]
    conv_rhs => rw [← List.map_id (m'.accel.read τ)]
    refine List.map_congr_left fun q _ => ?_
    simp

theorem rec_zip_cols (l : Rec K) : (l.map Prod.fst).zip (l.map Prod.snd) = l := by
  induction l with
  | nil => rfl
  | cons a l ih => simp only [List.map_cons, List.zip_cons_cons, ih]

theorem truncArr_start (acc : Rec K) (n : Nat) (hn : n ≤ acc.length) : truncArr acc 0 n = .ok (acc.take n) := by
  unfold truncArr
  have e : pySlice acc 0 ((n : Int) - 0) = acc.take n := by
    have := pySlice_nat acc 0 n hn
    simpa using this
  have e' : pySlice acc 0 (n : Int) = acc.take n := by
    have := pySlice_nat acc 0 n hn
    simpa using this
  rw [e, e']
  unfold colStack
  rw [if_neg (by simp), rec_zip_cols]

theorem dtOf_take (acc : Rec K) (n : Nat) (hn : 2 ≤ n) : dtOf (acc.take n) = dtOf acc := by
  obtain ⟨k, rfl⟩ := Nat.exists_eq_add_of_le hn
  match acc with
  | [] => rw [List.take_nil]
  | [_] => simp [Nat.add_comm 2 k]
  | a :: b :: r => simp [Nat.add_comm 2 k, dtOf]

/-- C220, truncation of a motion: cutting off the end of a record at a time once more returns the same record and the same indices. -/
theorem C220_truncate_motion (σ τ : CStore K) (m m' : Motion K) (norm norm' : Rec K) (lim ext : K × K) (r1 r2 : Int)
    (hdt : 0 < m.dt) (hn : m.npts = (m.accel.read σ).length) (hd : dtOf (m.accel.read σ) = .ok m.dt)
    (hs : lim.1 - ext.1 ≤ 0) (ht2 : 0 ≤ lim.2 + ext.2)
    (h : truncateMotion σ m norm lim false ext = (.ok (m', r1, r2), τ)) :
    ∃ m₂ τ₂, truncateMotion τ m' norm' lim false ext = (.ok (m₂, r1, r2), τ₂) ∧ m₂.accel.read τ₂ = m'.accel.read τ := by
  have idx : ∀ (acc nm : Rec K) (n : Nat), truncIdx acc nm m.dt n lim false ext =
      if ext.1 < 0 ∨ ext.2 < 0 then .error .valueError else if lim.2 ≤ lim.1 then .error .valueError else
        .ok (0, min (n : Int) ⌊(lim.2 + ext.2) / m.dt⌋) := by
    intro acc nm n
    have hclamp2 : (if (n : Int) < pyInt ((lim.2 + ext.2) / m.dt) then (n : Int) else pyInt ((lim.2 + ext.2) / m.dt)) =
        min (n : Int) ⌊(lim.2 + ext.2) / m.dt⌋ := by
      unfold pyInt
      rw [if_pos (div_nonneg ht2 hdt.le)]
      split_ifs <;> omega
    have hz : max 0 ⌊(lim.1 - ext.1) / m.dt⌋ = 0 := by
      have : ⌊(lim.1 - ext.1) / m.dt⌋ ≤ 0 := by
        have h1 : (lim.1 - ext.1) / m.dt ≤ 0 := div_nonpos_of_nonpos_of_nonneg hs hdt.le
        have h2 := Int.floor_le ((lim.1 - ext.1) / m.dt)
        exact_mod_cast h2.trans h1
      omega
    unfold truncIdx
    simp only [Bool.false_eq_true, if_false, bind, Except.bind, pure, Except.pure, clampLow, hclamp2, hz, if_neg hdt.ne']
  have hfl := Int.floor_nonneg.2 (div_nonneg ht2 hdt.le)
  unfold truncateMotion at h ⊢
  rw [idx] at h
  by_cases c1 : ext.1 < 0 ∨ ext.2 < 0
  · rw [if_pos c1] at h; cases h
  rw [if_neg c1] at h
  by_cases c2 : lim.2 ≤ lim.1
  · rw [if_pos c2] at h; cases h
  rw [if_neg c2] at h
  obtain ⟨n, en⟩ := Int.eq_ofNat_of_zero_le (a := min (m.npts : Int) ⌊(lim.2 + ext.2) / m.dt⌋) (by omega)
  have hnl : n ≤ (m.accel.read σ).length := by rw [← hn]; omega
  rw [en] at h
  simp only [truncArr_start _ n hnl] at h
  by_cases hn2 : 2 ≤ n
  swap
  · exfalso
    have : ∃ e τ', mkFresh σ ((m.accel.read σ).take n) = (.error e, τ') := by
      have hlt : ¬ 2 ≤ ((m.accel.read σ).take n).length := by rw [List.length_take]; omega
      generalize (m.accel.read σ).take n = x at hlt
      unfold mkFresh mkMotion
      have : ∃ e, readTwo (σ ++ [x]) (.two σ.length) none = .error e := by
        unfold readTwo
        have ha : (σ ++ [x])[σ.length]? = some x := by simp
        simp only [ha]
        match x, hlt with
        | [], _ => exact ⟨_, rfl⟩
        | [_], _ => exact ⟨_, rfl⟩
        | _ :: _ :: _, hlt => exact absurd (by simp) hlt
      obtain ⟨e, he⟩ := this
      rw [he]
      exact ⟨_, _, rfl⟩
    obtain ⟨e, τ', he⟩ := this
    rw [he] at h
    cases h
  have hlen : ((m.accel.read σ).take n).length = n := by rw [List.length_take]; omega
  obtain ⟨m₁, f1, f2, f3, f4, f5⟩ := mkFresh_spec σ ((m.accel.read σ).take n) (by omega)
  rw [f1] at h
  simp only [Prod.mk.injEq, Except.ok.injEq] at h
  obtain ⟨⟨rfl, rfl, rfl⟩, rfl⟩ := h
  rw [dtOf_take _ n hn2, hd] at f4
  have f4 := (Except.ok.inj f4).symm
  rw [f2, f3, hlen, f4, idx, if_neg c1, if_neg c2]
  have e2 : min (n : Int) ⌊(lim.2 + ext.2) / m.dt⌋ = n := by omega
  rw [e2]
  simp only [truncArr_start _ n hlen.ge, List.take_take, min_self]
  obtain ⟨m₂, g1, g2, _⟩ := mkFresh_spec (σ ++ [(m.accel.read σ).take n]) ((m.accel.read σ).take n) (by omega)
  exact ⟨m₂, _, by rw [g1], g2⟩

/-! ### Instances -/

/-- A layer of 3 m at 225 m/s on rock: one call divides it, the second leaves the three layers as they are. -/
example : (stratify [(⟨3, 225, ()⟩ : LRow ℚ Unit), ⟨0, 900, ()⟩]).length = 4 ∧
    stratify (stratify [(⟨3, 225, ()⟩ : LRow ℚ Unit), ⟨0, 900, ()⟩]) = stratify [(⟨3, 225, ()⟩ : LRow ℚ Unit), ⟨0, 900, ()⟩] :=
  ⟨by decide +kernel, C220_stratify _ ⟨by decide, by decide +kernel, by decide +kernel⟩⟩

/-- Two layers asked for as three. -/
example : (queryVsGivenThk [((2 : ℚ), (100 : ℚ)), (4, 200), (0, 800)] (.array [1, 2, 3]) true).toOption = some ([100, 200, 200], [1, 2, 3]) ∧
    (queryVsGivenThk [((1 : ℚ), (100 : ℚ)), (2, 200), (3, 200), (0, 800)] (.array [1, 2, 3]) true).toOption = some ([100, 200, 200], [1, 2, 3]) := by
  decide +kernel

end

end Verif
