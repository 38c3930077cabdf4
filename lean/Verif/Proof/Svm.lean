import Verif.Model.Svm
import Verif.Props.VsProfile
import Verif.Props.MotionObj

set_option linter.unusedSectionVars false
set_option linter.unusedVariables false

/-!
Facts about the smooth velocities, the capping and the layering of the sediment velocity model.
-/

namespace Verif

open Spec

theorem svmVs0_pos {v : ℝ} (h0 : 0 < v) (h1 : v ≤ 2500) : 0 < svmVs0 v := by
  unfold svmVs0
  nlinarith [mul_nonneg h0.le (sub_nonneg.2 h1)]

theorem svmK_pos (v : ℝ) : 0 < svmK v := Real.exp_pos _

theorem svmN_ge (v : ℝ) : 1 ≤ svmN v := le_max_left _ _

/-- Number of smooth layers. -/
noncomputable def svmCount (z1 : ℝ) : ℕ := ⌈(z1 - 24 / 10) / (1 / 10)⌉₊

theorem svmCount_bounds {z1 : ℝ} (h : 25 / 10 < z1) :
    2 ≤ svmCount z1 ∧ z1 ≤ 24 / 10 + (svmCount z1 : ℝ) * (1 / 10) ∧
      24 / 10 + ((svmCount z1 : ℝ) - 1) * (1 / 10) < z1 := by
  have hpos : (1 : ℝ) < (z1 - 24 / 10) / (1 / 10) := by
    rw [lt_div_iff₀ (by norm_num)]; linarith
  refine ⟨?_, ?_, ?_⟩
  · have : 1 < svmCount z1 := by
      unfold svmCount
      rw [Nat.lt_ceil]
      simpa using hpos
    omega
  · have h1 := Nat.le_ceil ((z1 - 24 / 10) / (1 / 10))
    rw [div_le_iff₀ (by norm_num)] at h1
    unfold svmCount
    linarith
  · have h1 := Nat.ceil_lt_add_one (a := (z1 - 24 / 10) / (1 / 10)) (by linarith)
    have h2 : (svmCount z1 : ℝ) - 1 < (z1 - 24 / 10) / (1 / 10) := by unfold svmCount; linarith
    rw [lt_div_iff₀ (by norm_num)] at h2
    linarith

theorem svmDepths_length (z1 : ℝ) : (svmDepths z1).length = svmCount z1 := by simp [svmDepths, svmCount]

theorem svmDepths_get (z1 : ℝ) (i : ℕ) (h : i < svmCount z1) : (svmDepths z1)[i]? = some ((i : ℝ) * (1 / 10)) := by
  unfold svmDepths
  unfold svmCount at h
  rw [List.getElem?_map, List.getElem?_range h]
  rfl

/-- The formula of Shi & Asimaki (2018). -/
noncomputable def svmAt (v z : ℝ) : ℝ := svmVs0 v * (1 + svmK v * z) ^ (1 / svmN v)

theorem svmSmooth_length (v z1 : ℝ) : (svmSmooth v z1).length = svmCount z1 := by
  simp [svmSmooth, svmDepths_length]

theorem svmSmooth_get (v z1 : ℝ) (i : ℕ) (h : i < svmCount z1) :
    (svmSmooth v z1)[i]? = some (svmAt v ((i : ℝ) * (1 / 10))) := by
  unfold svmSmooth
  rw [List.getElem?_map, svmDepths_get z1 i h]
  rfl

theorem svmAt_zero (v : ℝ) : svmAt v 0 = svmVs0 v := by
  unfold svmAt
  rw [mul_zero, add_zero, Real.one_rpow, mul_one]

theorem svmAt_strict {v x y : ℝ} (hv : 0 < svmVs0 v) (hx : 0 ≤ x) (hxy : x < y) : svmAt v x < svmAt v y := by
  unfold svmAt
  have hk := svmK_pos v
  have hn := svmN_ge v
  apply mul_lt_mul_of_pos_left _ hv
  apply Real.rpow_lt_rpow
  · positivity
  · have := mul_lt_mul_of_pos_left hxy hk
    linarith
  · positivity

theorem svmAt_mono {v x y : ℝ} (hv : 0 < svmVs0 v) (hx : 0 ≤ x) (hxy : x ≤ y) : svmAt v x ≤ svmAt v y := by
  rcases hxy.eq_or_lt with rfl | h
  · exact le_rfl
  · exact (svmAt_strict hv hx h).le

theorem dep2thkLoop_arange (d : ℝ) (n : ℕ) : ∀ z : ℝ, dep2thkLoop ((List.range (n + 1)).map fun i : ℕ => z + (i : ℝ) * d)
    = List.replicate n d ++ [0] := by
  induction n with
  | zero => intro z; simp [dep2thkLoop]
  | succ n ih =>
    intro z
    rw [List.range_succ_eq_map, List.map_cons, List.map_map]
    have h1 := ih (z + d)
    rw [List.range_succ_eq_map, List.map_cons, List.map_map] at h1
    rw [List.range_succ_eq_map, List.map_cons, List.map_map, dep2thkLoop]
    have e0 : ((fun i : ℕ => z + (i : ℝ) * d) ∘ Nat.succ) 0 = z + d + ((0 : ℕ) : ℝ) * d := by simp
    have e1 : ((fun i : ℕ => z + (i : ℝ) * d) ∘ Nat.succ) ∘ Nat.succ = (fun i : ℕ => z + d + (i : ℝ) * d) ∘ Nat.succ := by
      funext i
      simp only [Function.comp_apply]
      push_cast
      ring
    rw [e1, e0, h1, List.replicate_succ]
    simp

theorem svmThk {z1 : ℝ} (h : 25 / 10 < z1) :
    dep2thk (svmDepths z1) true = .ok (List.replicate (svmCount z1 - 1) (1 / 10 : ℝ) ++ [0]) := by
  obtain ⟨h2, _⟩ := svmCount_bounds h
  have hl := dep2thkLoop_arange (1 / 10) (svmCount z1 - 1) 0
  rw [show svmCount z1 - 1 + 1 = svmCount z1 by omega] at hl
  have he : svmDepths z1 = (List.range (svmCount z1)).map fun i : ℕ => 0 + (i : ℝ) * (1 / 10) := by
    unfold svmDepths svmCount
    simp
  rw [← he] at hl
  have h0 := svmDepths_get z1 0 (by omega)
  cases hd : svmDepths z1 with
  | nil => rw [hd] at h0; cases h0
  | cons a l =>
    rw [hd] at h0 hl
    have ha : a = 0 := by simpa using h0
    unfold dep2thk
    simp only [ha, ne_eq, not_true_eq_false, if_false, if_true]
    rw [← hl, ha]

theorem svmTemp_ok {v z1 : ℝ} (h : 25 / 10 < z1) :
    svmTemp v z1 = .ok (List.replicate (svmCount z1 - 1) (1 / 10 : ℝ) ++ [0],
      (24 / 10, svmVs0 v) :: (List.replicate (svmCount z1 - 1) (1 / 10 : ℝ) ++ [0]).zip (svmSmooth v z1)) := by
  obtain ⟨h2, _⟩ := svmCount_bounds h
  have h0 := svmSmooth_get v z1 0 (by omega)
  rw [Nat.cast_zero, zero_mul, svmAt_zero] at h0
  unfold svmTemp
  rw [svmThk h]
  simp only [bind, Except.bind, List.head?_eq_getElem?, h0]
  rfl

section Cap
variable {K : Type} [Field K] [LinearOrder K] [IsStrictOrderedRing K]

theorem findIdx?_split (p : K → Bool) (l : List K) (i : Nat) (h : l.findIdx? p = some i) :
    i < l.length ∧ (∀ (j : Nat) x, l[j]? = some x → j < i → p x = false) ∧ ∃ x, l[i]? = some x ∧ p x = true := by
  rw [List.findIdx?_eq_some_iff_getElem] at h
  obtain ⟨hi, hp, hj⟩ := h
  refine ⟨hi, ?_, l[i], List.getElem?_eq_getElem hi, hp⟩
  intro j x hx hji
  have hjl : j < l.length := by omega
  rw [List.getElem?_eq_getElem hjl] at hx
  have := hj j hji
  rw [Option.some.inj hx] at this
  simpa using this

/-- Values of the capped velocities: kept below `eta * cap`, a straight line to `cap` afterwards. -/
theorem capVs_spec {cap eta : K} {vs : List K} (hc : 0 < cap) (he0 : 0 < eta) (he1 : eta ≤ 1) :
    ∃ ws, capVs cap eta vs = .ok ws ∧ ws.length = vs.length ∧
      ((∀ v ∈ vs, v ≤ cap) ∧ ws = vs ∨
       ∃ idx, idx < vs.length ∧ (∃ x, vs[idx]? = some x ∧ cap * eta < x) ∧
         (∀ (j : Nat) x, vs[j]? = some x → j < idx → x ≤ cap * eta) ∧ (∃ v ∈ vs, cap < v) ∧
         ∀ i < vs.length, ws[i]? = if i < idx then vs[i]? else
           some (cap * eta + cap * (1 - eta) / ((vs.length : K) - idx) * ((i : K) - idx))) := by
  unfold capVs
  by_cases h : vs.any (fun v => decide (cap < v)) = true
  · rw [if_pos h]
    have hle : cap * eta ≤ cap := by nlinarith
    cases hi : vs.findIdx? (fun v => decide (cap * eta < v)) with
    | none =>
      exfalso
      rw [List.any_eq_true] at h
      obtain ⟨x, hx, hxc⟩ := h
      rw [List.findIdx?_eq_none_iff] at hi
      have := hi x hx
      simp only [decide_eq_false_iff_not, not_lt, decide_eq_true_eq] at this hxc
      exact absurd (this.trans hle) (not_le.2 hxc)
    | some idx =>
      obtain ⟨h1, h2, x, hx, hpx⟩ := findIdx?_split _ _ _ hi
      refine ⟨_, rfl, by simp, .inr ⟨idx, h1, ⟨x, hx, by simpa using hpx⟩, ?_, ?_, ?_⟩⟩
      · intro j y hy hj
        have := h2 j y hy hj
        simpa using this
      · rw [List.any_eq_true] at h
        obtain ⟨y, hy, hyc⟩ := h
        exact ⟨y, hy, by simpa using hyc⟩
      · intro i hil
        rw [List.getElem?_mapIdx, List.getElem?_eq_getElem hil]
        simp only [Option.map_some]
        split_ifs <;> rfl
  · rw [if_neg h]
    refine ⟨vs, rfl, rfl, .inl ⟨?_, rfl⟩⟩
    simpa using h

/-- The line from `eta * cap` to `cap`. -/
theorem cap_line {cap eta : K} {n idx i : Nat} (hc : 0 < cap) (he0 : 0 < eta) (he1 : eta ≤ 1) (h1 : idx ≤ i) (h2 : i < n) :
    cap * eta ≤ cap * eta + cap * (1 - eta) / ((n : K) - idx) * ((i : K) - idx) ∧
      cap * eta + cap * (1 - eta) / ((n : K) - idx) * ((i : K) - idx) ≤ cap := by
  have hi : (0 : K) ≤ (i : K) - idx := sub_nonneg.2 (by exact_mod_cast h1)
  have hin : (i : K) - idx < (n : K) - idx := by
    have : (i : K) < n := by exact_mod_cast h2
    linarith
  have hn : (0 : K) < (n : K) - idx := lt_of_le_of_lt hi hin
  have hq : 0 ≤ cap * (1 - eta) := mul_nonneg hc.le (by linarith)
  have hd : 0 ≤ cap * (1 - eta) / ((n : K) - idx) := div_nonneg hq hn.le
  constructor
  · have := mul_nonneg hd hi
    linarith
  · have h3 : cap * (1 - eta) / ((n : K) - idx) * ((i : K) - idx) ≤ cap * (1 - eta) / ((n : K) - idx) * ((n : K) - idx) :=
      mul_le_mul_of_nonneg_left hin.le hd
    rw [div_mul_cancel₀ _ hn.ne'] at h3
    linarith

end Cap

/-- Construction of a `Vs_Profile` from a fresh two-column array. -/
theorem profileOf {K : Type} [Field K] [LinearOrder K] [IsStrictOrderedRing K] [FloorRing K]
    (σ : Store K) (rows : List (K × K)) (hv : Valid rows) :
    ∃ o σ' r5, mkProfile (σ ++ [.two rows]) σ.length .one .si false 3 = .ok (o, σ') ∧ Consistent σ' o r5 ∧
      Constructed r5 o ∧ r5.map Row.tv = rows := by
  have hck := (checkVsFormat_two_ok rows).2 hv
  have ha : (σ ++ [Cell.two rows])[σ.length]? = some (.two rows) := by simp
  have hv5 := expectedRows_valid5 (.two rows) .one .si 3 (by simp) hck
  obtain ⟨r, hr, hm⟩ := expectedRows_last (.two rows) .one .si false 3 (by simp) hck (by intro h; cases h)
  obtain ⟨o, σ', r5, h1, h2, _, _, h5, _, _, h8, h9⟩ :=
    mkProfile_cases (σ ++ [.two rows]) σ.length _ ha .one .si false 3 hck (by simp) (by simp) hv5 r hr hm
  refine ⟨o, σ', r5, h1, ⟨h5, h8⟩, h2, ?_⟩
  rw [h9, if_neg (by simp), List.append_nil]
  exact expandTwo_map_tv rows 3 hv.nonempty

/-- The same with an added half space. -/
theorem profileOf_half {K : Type} [Field K] [LinearOrder K] [IsStrictOrderedRing K] [FloorRing K]
    (σ : Store K) (rows : List (K × K)) (hv : Valid rows) :
    ∃ o σ' r5, mkProfile (σ ++ [.two rows]) σ.length .one .si true 3 = .ok (o, σ') ∧ Consistent σ' o r5 ∧
      Constructed r5 o ∧ ∃ tl, r5.map Row.tv = rows ++ tl ∧ ∀ x ∈ tl, x.1 = 0 ∧ ∃ y ∈ rows, x.2 = y.2 := by
  have hck := (checkVsFormat_two_ok rows).2 hv
  have ha : (σ ++ [Cell.two rows])[σ.length]? = some (.two rows) := by simp
  have hv5 := expectedRows_valid5 (.two rows) .one .si 3 (by simp) hck
  obtain ⟨r, hr, hm⟩ := expectedRows_last (.two rows) .one .si true 3 (by simp) hck (by intro h rs r' e; cases e)
  obtain ⟨o, σ', r5, h1, h2, _, _, h5, _, _, h8, h9⟩ :=
    mkProfile_cases (σ ++ [.two rows]) σ.length _ ha .one .si true 3 hck (by simp) (by simp) hv5 r hr hm
  have htv : (expandTwo rows 3).map Row.tv = rows := expandTwo_map_tv rows 3 hv.nonempty
  refine ⟨o, σ', r5, h1, ⟨h5, h8⟩, h2, ?_⟩
  rw [h9, List.map_append]
  simp only [expectedRows, htv] at hr ⊢
  refine ⟨_, rfl, ?_⟩
  intro x hx
  split_ifs at hx with hh
  · simp only [List.map_cons, List.map_nil, List.mem_singleton] at hx
    subst hx
    refine ⟨rfl, r.tv, ?_, rfl⟩
    rw [← htv]
    exact List.mem_map_of_mem (List.mem_of_getLast? hr)
  · simp at hx

/-- The numeric cap. -/
def CapArg.val : CapArg → Option ℝ
  | .yes => some 1000
  | .no => none
  | .num c => some c

theorem valid_of_columns {rows : List (ℝ × ℝ)} {top d : ℝ} {n : ℕ} {vs : List ℝ} (ht : 0 < top) (hd : 0 < d)
    (h1 : rows.map Prod.fst = top :: (List.replicate n d ++ [0])) (h2 : rows.map Prod.snd = vs) (hv : ∀ v ∈ vs, 0 < v) :
    Valid rows := by
  refine ⟨?_, ?_, ?_, ?_⟩
  · rintro rfl; simp at h1
  · intro r hr
    have : r.1 ∈ (rows.map Prod.fst).dropLast := by
      rw [← List.map_dropLast]; exact List.mem_map_of_mem hr
    rw [h1, ← List.cons_append, List.dropLast_concat] at this
    rcases List.mem_cons.1 this with h | h
    · rw [h]; exact ht
    · rw [List.eq_of_mem_replicate h]; exact hd
  · intro r hr
    have : r.1 ∈ rows.map Prod.fst := List.mem_map_of_mem hr
    rw [h1] at this
    rcases List.mem_cons.1 this with h | h
    · rw [h]; exact ht.le
    · rcases List.mem_append.1 h with h | h
      · rw [List.eq_of_mem_replicate h]; exact hd.le
      · simp only [List.mem_singleton] at h; rw [h]
  · intro r hr
    exact hv r.2 (by rw [← h2]; exact List.mem_map_of_mem hr)

/-- Description of a capped profile on deep sediments. -/
theorem mkSvm_capped (target : ℝ) (z1 : Option ℝ) (cap : CapArg) (eta trial c : ℝ)
    (hz : 25 / 10 < z1.getD (z1FromVs30 target)) (he0 : 0 < eta) (he1 : eta ≤ 1) (hcap : cap.val = some c) (hc : 0 < c)
    (hv : 0 < svmVs0 trial) :
    ∃ s ws r5, mkSvm target z1 cap eta trial = .ok s ∧
      capVs c eta (svmSmooth trial (z1.getD (z1FromVs30 target))) = .ok ws ∧
      s.z1 = z1.getD (z1FromVs30 target) ∧ s.vs30 = target ∧ s.bedrock = .num c ∧ s.hasBedrock = true ∧
      s.rows.map Prod.fst = 24 / 10 :: (List.replicate (svmCount s.z1 - 1) (1 / 10 : ℝ) ++ [0]) ∧
      s.rows.map Prod.snd = svmVs0 trial :: (ws.dropLast ++ [c]) ∧ ws.length = svmCount s.z1 ∧
      Valid s.rows ∧ Consistent s.store s.obj r5 ∧ Constructed r5 s.obj ∧ r5.map Row.tv = s.rows := by
  set z := z1.getD (z1FromVs30 target) with hzdef
  obtain ⟨h2, _⟩ := svmCount_bounds hz
  obtain ⟨ws, hws, hwl, hval⟩ := capVs_spec (vs := svmSmooth trial z) hc he0 he1
  rw [svmSmooth_length] at hwl
  have hhead : (svmSmooth trial z).headD 0 = svmVs0 trial := by
    have h0 := svmSmooth_get trial z 0 (by omega)
    rw [Nat.cast_zero, zero_mul, svmAt_zero] at h0
    cases hs : svmSmooth trial z with
    | nil => rw [hs] at h0; cases h0
    | cons a l => rw [hs] at h0; simpa using h0
  set th : List ℝ := List.replicate (svmCount z - 1) (1 / 10 : ℝ) ++ [0] with hth
  have hthl : th.length = svmCount z := by simp [hth]; omega
  set rows := cappedRows (24 / 10) (svmVs0 trial) th ws c with hrows
  have hdl : th.dropLast ++ [0] = th := by simp [hth]
  have hwdl : (ws.dropLast ++ [c]).length = svmCount z := by simp [hwl]; omega
  have hf : rows.map Prod.fst = 24 / 10 :: th := by
    rw [hrows, cappedRows, hdl, List.map_cons, List.map_fst_zip (by rw [hthl, hwdl])]
  have hsn : rows.map Prod.snd = svmVs0 trial :: (ws.dropLast ++ [c]) := by
    rw [hrows, cappedRows, hdl, List.map_cons, List.map_snd_zip (by rw [hthl, hwdl])]
  have hpos : ∀ v ∈ svmVs0 trial :: (ws.dropLast ++ [c]), 0 < v := by
    intro v hvm
    rcases List.mem_cons.1 hvm with rfl | hvm
    · exact hv
    rcases List.mem_append.1 hvm with hvm | hvm
    · have hmem := List.mem_of_mem_dropLast hvm
      obtain ⟨i, hi⟩ := List.mem_iff_getElem?.1 hmem
      have hil : i < svmCount z := by
        by_contra hn; rw [List.getElem?_eq_none (by omega)] at hi; cases hi
      have hsm : 0 < svmAt trial ((i : ℝ) * (1 / 10)) :=
        lt_of_lt_of_le hv (by rw [← svmAt_zero]; exact svmAt_mono hv le_rfl (by positivity))
      rcases hval with ⟨_, rfl⟩ | ⟨idx, hidx, _, _, _, hline⟩
      · rw [svmSmooth_get _ _ _ hil] at hi
        rw [← Option.some.inj hi]; exact hsm
      · have := hline i (by rw [svmSmooth_length]; exact hil)
        rw [hi] at this
        split_ifs at this with hlt
        · rw [svmSmooth_get _ _ _ hil] at this
          rw [Option.some.inj this]; exact hsm
        · rw [Option.some.inj this]
          exact lt_of_lt_of_le (mul_pos hc he0)
            (cap_line hc he0 he1 (not_lt.1 hlt) (by rw [svmSmooth_length]; exact hil)).1
    · simp only [List.mem_singleton] at hvm; rw [hvm]; exact hc
  have hvalid : Valid rows := valid_of_columns (by norm_num) (by norm_num) hf hsn hpos
  obtain ⟨o, σ', r5, hmk, hcons, hconstr, htv⟩ := profileOf [] rows hvalid
  refine ⟨⟨target, z, rows, o, σ', .num c, true⟩, ws, r5, ?_, hws, rfl, rfl, rfl, rfl, hf, hsn, hwl, hvalid, hcons, hconstr, htv⟩
  unfold mkSvm
  rw [if_neg (by rintro (h | h) <;> linarith)]
  dsimp only
  rw [← hzdef]
  have hr : svmRows target trial z eta cap = .ok (rows, .num c) := by
    unfold svmRows
    rw [if_neg (not_le.2 hz), svmTemp_ok hz]
    simp only [bind, Except.bind]
    cases cap with
    | no => cases hcap
    | yes => cases hcap; dsimp only; rw [hws, hhead]; rfl
    | num c' => cases hcap; dsimp only; rw [hws, hhead]; rfl
  rw [hr]
  simp only [bind, Except.bind]
  rw [show ([Cell.two rows] : Store ℝ) = [] ++ [Cell.two rows] from rfl, show (0 : ℕ) = ([] : Store ℝ).length from rfl, hmk]
  rfl

end Verif
