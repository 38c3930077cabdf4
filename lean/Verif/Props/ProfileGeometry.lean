import Verif.Proof.Stratify

/-!
Properties C01–C07 and C12: layer geometry, depth queries, VsZ, basin depth,
re-discretisation.
-/

set_option linter.unusedSectionVars false
set_option linter.unusedVariables false

namespace Verif

open Spec

variable {K : Type*} [Field K] [LinearOrder K] [IsStrictOrderedRing K]

/-! ## C01 -/

/-- Layer tops: one depth per layer, equal to the thickness above. -/
theorem C01_thk2dep_tops (thk : List K) (h : thk ≠ []) :
    ∃ dep, thk2dep thk false = .ok dep ∧ dep.length = thk.length ∧
      ∀ i, i < thk.length → dep[i]? = some (topDepth thk i) := by
  refine ⟨zTop 0 thk, by simp [thk2dep, h], zTop_length 0 thk, fun i hi => ?_⟩
  rw [zTop_getElem? 0 thk i hi, zero_add]

/-- Mid-points: the last (half space) layer of zero thickness has none, all other
layers have the depth half-way between top and bottom. -/
theorem C01_thk2dep_midpoints (thk : List K) (h : thk ≠ []) :
    ∃ dep, thk2dep thk true = .ok dep ∧
      dep.length = (if thk.getLast? = some 0 then thk.length - 1 else thk.length) ∧
      ∀ i, i < dep.length → dep[i]? = some ((topDepth thk i + topDepth thk (i + 1)) / 2) := by
  refine ⟨zMid 0 thk, by simp [thk2dep, h], zMid_length 0 thk, fun i hi => ?_⟩
  have hlen := zMid_length 0 thk
  have hl : 0 < thk.length := List.length_pos_iff.2 h
  rw [zMid_getElem? 0 thk i ?_, topDepth_succ]
  · congr 1; ring
  · rw [hlen] at hi
    split at hi
    · left; omega
    · rename_i hlast
      rcases Nat.lt_or_ge (i + 1) thk.length with h' | h'
      · left; exact h'
      · right; exact ⟨by omega, hlast⟩

/-- thickness → depth → thickness: the last thickness is replaced by 0. -/
theorem C01_thk_roundtrip (thk : List K) (h : thk ≠ []) :
    (thk2dep thk false >>= fun d => dep2thk d true) = .ok (thk.dropLast ++ [0]) := by
  cases thk with
  | nil => exact absurd rfl h
  | cons t ts =>
    have := dep2thkLoop_zTop 0 (t :: ts) h
    simp only [zTop] at this
    simp only [thk2dep, h, if_false, Bool.false_eq_true, zTop, dep2thk, bind, Except.bind, ne_eq,
      not_true_eq_false, if_true, this]

/-- A thickness array ending with a half space survives the round trip unchanged. -/
theorem C01_thk_roundtrip_halfspace (thk : List K) (h : thk.getLast? = some 0) :
    (thk2dep thk false >>= fun d => dep2thk d true) = .ok thk := by
  have hne : thk ≠ [] := by rintro rfl; simp at h
  rw [C01_thk_roundtrip thk hne]
  congr 1
  have hl : thk.getLast hne = 0 := by
    rw [List.getLast?_eq_getLast_of_ne_nil hne] at h; simpa using h
  rw [← hl]; exact List.dropLast_append_getLast hne

/-- depth → thickness → depth is the identity on arrays starting at 0. -/
theorem C01_dep_roundtrip (dep : List K) (h : dep.head? = some 0) :
    (dep2thk dep true >>= fun t => thk2dep t false) = .ok dep := by
  cases dep with
  | nil => simp at h
  | cons d ds =>
    have hd : d = 0 := by simpa using h
    subst hd
    simp [dep2thk, bind, Except.bind, thk2dep, dep2thkLoop_ne_nil, zTop_dep2thkLoop]

/-- Without the half space the same thicknesses minus the last entry. -/
theorem C01_dep2thk_no_halfspace (dep : List K) (h : dep.head? = some 0) :
    ∃ t, dep2thk dep true = .ok t ∧ dep2thk dep false = .ok t.dropLast ∧
      t.length = dep.length ∧ t.getLast? = some 0 := by
  cases dep with
  | nil => simp at h
  | cons d ds =>
    have hd : d = 0 := by simpa using h
    subst hd
    refine ⟨dep2thkLoop (0 :: ds), by simp [dep2thk], by simp [dep2thk], ?_, ?_⟩
    · have : ∀ d : K, (dep2thkLoop (d :: ds)).length = (d :: ds).length := by
        clear h
        induction ds with
        | nil => intro d; rfl
        | cons a as ih => intro d; simp [dep2thkLoop, ih a]
      exact this 0
    · generalize hd : (0 : K) = d
      have : ∀ d : K, (dep2thkLoop (d :: ds)).getLast? = some 0 := by
        induction ds with
        | nil => intro d; rfl
        | cons a as ih =>
          intro d
          rw [dep2thkLoop]
          have := ih (by simp) a
          obtain ⟨b, bs, hb⟩ := List.exists_cons_of_ne_nil (dep2thkLoop_ne_nil a as)
          rw [hb] at this ⊢
          rw [List.getLast?_cons_cons]; exact this
      rw [this d, hd]

/-- Rejected inputs. -/
theorem C01_errors :
    (∀ b, thk2dep ([] : List K) b = .error .indexError) ∧
    (∀ b, dep2thk ([] : List K) b = .error .indexError) ∧
    (∀ (d : K) ds b, d ≠ 0 → dep2thk (d :: ds) b = .error .valueError) := by
  refine ⟨fun b => by simp [thk2dep], fun b => by simp [dep2thk], fun d ds b h => by simp [dep2thk, h]⟩

-- a non-trivial case of the hypotheses
example : (thk2dep ([3, 4, 5] : List ℚ) false >>= fun d => dep2thk d true) = .ok [3, 4, 0] := by
  decide +kernel
example : (dep2thk ([0, 2, 7] : List ℚ) true >>= fun t => thk2dep t false) = .ok [0, 2, 7] := by
  decide +kernel

/-! ## C02 -/

/-- A concrete valid profile used as witness below. -/
def demoProfile : List (ℚ × ℚ) := [(10, 200), (20, 400), (0, 800)]

theorem demoProfile_valid : Valid demoProfile := by
  constructor <;> simp [demoProfile]

theorem mapM_ok_forall₂ {α β : Type*} (f : α → Except PyErr β) (R : α → β → Prop) (l : List α)
    (h : ∀ a ∈ l, ∃ b, f a = .ok b ∧ R a b) :
    ∃ out, l.mapM f = .ok out ∧ List.Forall₂ R l out := by
  induction l with
  | nil => exact ⟨[], rfl, .nil⟩
  | cons a as ih =>
    obtain ⟨b, hb, hR⟩ := h a (by simp)
    obtain ⟨out, ho, hF⟩ := ih fun a ha => h a (by simp [ha])
    refine ⟨b :: out, ?_, .cons hR hF⟩
    rw [List.mapM_cons, hb, ho]; rfl

/-- Every queried depth gets the velocity of the layer containing it; at an
interface this is the layer below, beneath the profile the last layer. -/
theorem C02_query_depth (p : List (K × K)) (hp : Valid p) (depth : List K) (hd : ∀ z ∈ depth, 0 ≤ z) :
    ∃ out, queryVsAtDepth p depth = .ok out ∧ List.Forall₂ (HasAt p) depth out := by
  have hany : depth.any (fun d => decide (d < 0)) = false := by
    simpa using hd
  have hne : p.map Prod.fst ≠ [] := by simpa using hp.nonempty
  unfold queryVsAtDepth
  rw [hany]
  simp only [Bool.false_eq_true, if_false, thk2dep, hne, bind, Except.bind]
  apply mapM_ok_forall₂
  intro z hz
  obtain ⟨i, hi, hc⟩ := count_zTop 0 z (p.map Prod.fst) hp.thkOK (hd z hz)
  rw [sub_zero] at hc
  have hlt : i < (p.map Prod.snd).length := by simpa using hc.1
  refine ⟨(p.map Prod.snd)[i], ?_, i, hc, List.getElem?_eq_getElem hlt⟩
  rw [hi, Nat.add_sub_cancel, List.getElem?_eq_getElem hlt]

/-- The velocity at a depth is unique, so `C02_query_depth` determines the output. -/
theorem C02_velocity_unique (p : List (K × K)) (hp : Valid p) (z v w : K)
    (h1 : HasAt p z v) (h2 : HasAt p z w) : v = w := by
  obtain ⟨i, hi, hv⟩ := h1
  obtain ⟨j, hj, hw⟩ := h2
  have := contains_unique hp.thkOK.nonneg hi hj
  subst this
  rw [hv] at hw; exact Option.some.inj hw

/-- Negative depths are rejected, whatever the profile. -/
theorem C02_negative_depth (p : List (K × K)) (depth : List K) (z : K) (hz : z ∈ depth) (hn : z < 0) :
    queryVsAtDepth p depth = .error .valueError := by
  have : depth.any (fun d => decide (d < 0)) = true := List.any_eq_true.2 ⟨z, hz, by simpa using hn⟩
  simp [queryVsAtDepth, this]

example : queryVsAtDepth demoProfile [0, 10, 15, 30, 500] = .ok [200, 400, 400, 800, 800] := by
  decide +kernel

/-! ## C03, C04, C05 -/

/-- Option 1: `Z` divided by the travel time through the top `Z` metres. -/
theorem C03_VsZ_option1 (p : List (K × K)) (hp : Valid p) (Z : K) (hZ : 0 < Z) :
    0 < travelTime p Z ∧ calcVsZ p Z 1 = .ok (Z / travelTime p Z) := by
  have hpos : 0 < ttRec Z 0 p := ttRec_pos Z 0 p hp.nonempty hp.thk_nonneg hp.vs_pos hZ
  have key := cumulSl_eq Z 0 0 p hp.thk_nonneg hZ hp.nonempty
  rw [travelTime_eq_ttRec]
  refine ⟨hpos, ?_⟩
  unfold calcVsZ
  simp only [if_true, List.getLast?_eq_getLast_of_ne_nil hp.nonempty]
  rw [zero_add, zero_add] at key
  split_ifs at key ⊢ with h1 h2 h3
  · rw [key] at h2; exact absurd h2 hpos.ne'
  · rw [key]
  · rw [add_zero] at key; rw [key] at h3; exact absurd h3 hpos.ne'
  · rw [add_zero] at key; rw [key]

/-- Option 2: a profile shallower than `Z` is averaged over its own depth. -/
theorem C03_VsZ_option2 (p : List (K × K)) (hp : Valid p) (Z : K) (hZ : 0 < Z)
    (ht : 0 < (p.map Prod.fst).sum) :
    calcVsZ p Z 2 = .ok (min (p.map Prod.fst).sum Z / travelTime p (min (p.map Prod.fst).sum Z)) := by
  have hm : 0 < min (p.map Prod.fst).sum Z := lt_min ht hZ
  have hpos := ttRec_pos (min (p.map Prod.fst).sum Z) 0 p hp.nonempty hp.thk_nonneg hp.vs_pos hm
  rw [travelTime_eq_ttRec]
  -- the loop does not see the difference between `Z` and the clipped depth
  have hcum : cumulSl Z 0 0 p = ttRec (min (p.map Prod.fst).sum Z) 0 p := by
    rcases le_total Z (p.map Prod.fst).sum with h | h
    · have key := cumulSl_eq Z 0 0 p hp.thk_nonneg hZ hp.nonempty
      rw [zero_add, zero_add, if_neg (not_lt.2 h), add_zero] at key
      rw [min_eq_right h, key]
    · rw [min_eq_left h]
      have aux : ∀ (q : List (K × K)) (d acc : K), (∀ r ∈ q, 0 ≤ r.1) → q ≠ [] →
          d + (q.map Prod.fst).sum ≤ Z →
          cumulSl Z d acc q = acc + ttRec (d + (q.map Prod.fst).sum) d q := by
        intro q
        induction q with
        | nil => intro d acc _ h; exact absurd rfl h
        | cons r q ih =>
          obtain ⟨t, v⟩ := r
          intro d acc hq _ hle
          have ht0 : 0 ≤ t := hq (t, v) (by simp)
          have hs : 0 ≤ (q.map Prod.fst).sum := List.sum_nonneg (by
            intro y hy; obtain ⟨s, hs, rfl⟩ := List.mem_map.1 hy; exact hq s (by simp [hs]))
          simp only [List.map_cons, List.sum_cons] at hle ⊢
          cases q with
          | nil =>
            simp only [List.map_nil, List.sum_nil, add_zero] at hle ⊢
            simp only [cumulSl, ttRec]
            rw [max_eq_right (by linarith)]
            split_ifs with hc
            · ring
            · have : d + t = Z := le_antisymm hle (not_lt.1 hc)
              rw [← this]; ring
          | cons r' q' =>
            have hq' : ∀ r ∈ r' :: q', 0 ≤ r.1 := fun r hr => hq r (by simp [hr])
            rw [ttRec, ← add_assoc]
            rw [min_eq_right (by linarith), max_eq_right (by linarith)]
            rw [cumulSl]
            split_ifs with hc
            · rw [ih (d + t) _ hq' (by simp) (by linarith)]; ring_nf
            · have he : d + t = Z := le_antisymm (by linarith) (not_lt.1 hc)
              rw [ttRec_zero_of_le _ (d + t) _ hq' (by linarith), ← he]; ring
      have := aux p 0 0 hp.thk_nonneg hp.nonempty (by simpa using h)
      simpa using this
  unfold calcVsZ
  rw [hcum]
  simp only [show (2 : Int) ≠ 1 by decide, if_false, if_true, hpos.ne']

/-- `calc_Vs30` is `calc_VsZ` at 30 m. -/
theorem C03_Vs30 (p : List (K × K)) (hp : Valid p) :
    calcVs30 p 1 = .ok (30 / travelTime p 30) :=
  (C03_VsZ_option1 p hp 30 (by norm_num)).2

/-- Any other option value leaves the result unbound. -/
theorem C03_bad_option (p : List (K × K)) (Z : K) (opt : Int) (h1 : opt ≠ 1) (h2 : opt ≠ 2) :
    calcVsZ p Z opt = .error .unboundLocal := by
  simp [calcVsZ, h1, h2]

example : calcVs30 demoProfile 1 = .ok 300 := by decide +kernel
example : calcVsZ [((10 : ℚ), 200), (5, 400)] 30 2 = .ok 240 := by decide +kernel

/-- VsZ lies between any lower and upper bound of the layer velocities. -/
theorem C04_VsZ_between (p : List (K × K)) (hp : Valid p) (Z : K) (hZ : 0 < Z) (lo hi : K) (hlo : 0 < lo)
    (h : ∀ r ∈ p, lo ≤ r.2 ∧ r.2 ≤ hi) :
    ∃ v, calcVsZ p Z 1 = .ok v ∧ lo ≤ v ∧ v ≤ hi := by
  obtain ⟨hpos, hv⟩ := C03_VsZ_option1 p hp Z hZ
  refine ⟨_, hv, ?_, ?_⟩
  all_goals
    rw [travelTime_eq_ttRec] at hpos ⊢
    obtain ⟨h1, h2⟩ := ttRec_bounds Z 0 p hp.nonempty hp.thk_nonneg hZ.le lo hi hlo h
    rw [sub_zero] at h1 h2
    obtain ⟨r, hr⟩ := List.exists_mem_of_ne_nil p hp.nonempty
    have hhi : 0 < hi := lt_of_lt_of_le hlo ((h r hr).1.trans (h r hr).2)
  · rw [le_div_iff₀ hpos]; rw [le_div_iff₀ hlo] at h2; linarith
  · rw [div_le_iff₀ hpos]; rw [div_le_iff₀ hhi] at h1; linarith

/-- A uniform profile has that velocity as VsZ. -/
theorem C04_VsZ_uniform (p : List (K × K)) (hp : Valid p) (Z : K) (hZ : 0 < Z) (v : K)
    (h : ∀ r ∈ p, r.2 = v) : calcVsZ p Z 1 = .ok v := by
  obtain ⟨r, hr⟩ := List.exists_mem_of_ne_nil p hp.nonempty
  have hv : 0 < v := by rw [← h r hr]; exact hp.vs_pos r hr
  obtain ⟨w, hw, h1, h2⟩ := C04_VsZ_between p hp Z hZ v v hv fun r hr => by simp [h r hr]
  rw [hw, le_antisymm h2 h1]

example : ∀ r ∈ demoProfile, (200 : ℚ) ≤ r.2 ∧ r.2 ≤ 800 := by simp [demoProfile]; norm_num

/-- Splitting a homogeneous layer changes neither the travel time nor VsZ. -/
theorem C05_VsZ_split (pre post : List (K × K)) (a b v Z : K) (ha : 0 < a) (hb : 0 < b)
    (hp : Valid (pre ++ (a + b, v) :: post)) (hZ : 0 < Z) :
    calcVsZ (pre ++ (a, v) :: (b, v) :: post) Z 1 = calcVsZ (pre ++ (a + b, v) :: post) Z 1 := by
  have hpre : ∀ r ∈ pre, 0 ≤ r.1 := fun r hr => hp.thk_nonneg r (by simp [hr])
  have hp' : Valid (pre ++ (a, v) :: (b, v) :: post) := by
    refine ⟨by simp, ?_, ?_, ?_⟩
    · intro r hr
      cases post with
      | nil =>
        simp only [List.dropLast_append_cons, List.dropLast] at hr
        have hthk := hp.thk_pos
        simp only [List.dropLast_append_cons, List.dropLast, List.append_nil] at hthk
        rcases List.mem_append.1 hr with h | h
        · exact hthk r h
        · simp at h; simp [h, ha]
      | cons q post =>
        have hthk := hp.thk_pos
        simp only [List.dropLast_append_cons, List.dropLast] at hr hthk
        rcases List.mem_append.1 hr with h | h
        · exact hthk r (by simp [h])
        · simp only [List.mem_cons] at h
          rcases h with rfl | rfl | h
          · exact ha
          · exact hb
          · exact hthk r (by simp [h])
    · intro r hr
      rcases List.mem_append.1 hr with h | h
      · exact hpre r h
      · simp only [List.mem_cons] at h
        rcases h with rfl | rfl | h
        · exact ha.le
        · exact hb.le
        · exact hp.thk_nonneg r (by simp [h])
    · intro r hr
      have hv : 0 < v := hp.vs_pos (a + b, v) (by simp)
      rcases List.mem_append.1 hr with h | h
      · exact hp.vs_pos r (by simp [h])
      · simp only [List.mem_cons] at h
        rcases h with rfl | rfl | h
        · exact hv
        · exact hv
        · exact hp.vs_pos r (by simp [h])
  rw [(C03_VsZ_option1 _ hp' Z hZ).2, (C03_VsZ_option1 _ hp Z hZ).2, travelTime_eq_ttRec,
    travelTime_eq_ttRec, ttRec_split Z 0 pre post a b v hpre ha.le hb.le]

example : Valid ([((10 : ℚ), (200 : ℚ))] ++ (12 + 8, 400) :: [(0, 800)]) := by
  constructor <;> simp <;> norm_num

/-! ## C06 -/

/-- Layer `i` is the first one whose velocity reaches `v0`. -/
def Spec.FirstReach (p : List (K × K)) (v0 : K) (i : Nat) : Prop :=
  (∃ v, (p.map Prod.snd)[i]? = some v ∧ v0 ≤ v) ∧
  ∀ j < i, ∀ v, (p.map Prod.snd)[j]? = some v → v < v0

theorem basinLoop_spec (v0 total z0 : K) (p : List (K × K)) :
    (∃ i, FirstReach p v0 i ∧
      basinLoop v0 total ((zTop z0 (p.map Prod.fst)).zip (p.map Prod.snd)) =
        z0 + topDepth (p.map Prod.fst) i) ∨
    ((∀ r ∈ p, r.2 < v0) ∧
      basinLoop v0 total ((zTop z0 (p.map Prod.fst)).zip (p.map Prod.snd)) = total) := by
  induction p generalizing z0 with
  | nil => right; simp [zTop, basinLoop]
  | cons r p ih =>
    obtain ⟨t, v⟩ := r
    simp only [List.map_cons, zTop, List.zip_cons_cons, basinLoop]
    by_cases h : v0 ≤ v
    · left
      refine ⟨0, ⟨⟨v, by simp, h⟩, by simp⟩, ?_⟩
      simp [h]
    · simp only [h, if_false]
      rcases ih (z0 + t) with ⟨i, ⟨⟨w, hw, hle⟩, hlt⟩, he⟩ | ⟨hall, he⟩
      · left
        refine ⟨i + 1, ⟨⟨w, by simpa using hw, hle⟩, ?_⟩, ?_⟩
        · intro j hj u hu
          cases j with
          | zero =>
            simp at hu; subst hu; exact not_le.1 h
          | succ j => exact hlt j (by omega) u (by simpa using hu)
        · rw [he, topDepth_cons_succ]; ring
      · right
        refine ⟨?_, he⟩
        intro r hr
        rcases List.mem_cons.1 hr with rfl | hr
        · exact not_le.1 h
        · exact hall r hr

/-- The basin depth is the top of the first layer reaching the threshold; if there
is none it is the bottom of the profile. -/
theorem C06_basin_depth (p : List (K × K)) (hp : p ≠ []) (v0 : K) :
    ∃ d, calcBasinDepth p v0 = .ok d ∧
      ((∃ i, FirstReach p v0 i ∧ d = topDepth (p.map Prod.fst) i) ∨
       ((∀ r ∈ p, r.2 < v0) ∧ d = (p.map Prod.fst).sum)) := by
  refine ⟨basinLoop v0 (p.map Prod.fst).sum ((zTop 0 (p.map Prod.fst)).zip (p.map Prod.snd)), ?_, ?_⟩
  · simp [calcBasinDepth, thk2dep, hp, bind, Except.bind, pure, Except.pure]
  · rcases basinLoop_spec v0 (p.map Prod.fst).sum 0 p with ⟨i, h1, h2⟩ | ⟨h1, h2⟩
    · left; exact ⟨i, h1, by rw [h2, zero_add]⟩
    · right; exact ⟨h1, h2⟩

/-- Raising the threshold never decreases the basin depth. -/
theorem C06_basin_depth_mono (p : List (K × K)) (hp : Valid p) (v1 v2 : K) (hv : v1 ≤ v2) (d1 d2 : K)
    (h1 : calcBasinDepth p v1 = .ok d1) (h2 : calcBasinDepth p v2 = .ok d2) : d1 ≤ d2 := by
  obtain ⟨e1, he1, c1⟩ := C06_basin_depth p hp.nonempty v1
  obtain ⟨e2, he2, c2⟩ := C06_basin_depth p hp.nonempty v2
  rw [h1] at he1; rw [h2] at he2
  cases he1; cases he2
  have hn := hp.thkOK.nonneg
  have hle : ∀ i, topDepth (p.map Prod.fst) i ≤ (p.map Prod.fst).sum := by
    intro i
    have := topDepth_mono hn (Nat.le_max_left i (p.map Prod.fst).length)
    unfold topDepth at this ⊢
    rwa [List.take_of_length_le (l := p.map Prod.fst) (Nat.le_max_right _ _)] at this
  rcases c1 with ⟨i, ⟨⟨u, hu, hul⟩, hbefore⟩, rfl⟩ | ⟨hall, rfl⟩
  · rcases c2 with ⟨j, ⟨⟨w, hw, hwl⟩, hbj⟩, rfl⟩ | ⟨_, rfl⟩
    · apply topDepth_mono hn
      by_contra hlt
      have := hbefore j (not_le.1 hlt) w hw
      exact absurd (lt_of_lt_of_le this (hv.trans hwl)) (lt_irrefl _)
    · exact hle i
  · rcases c2 with ⟨j, ⟨⟨w, hw, hwl⟩, _⟩, rfl⟩ | ⟨_, rfl⟩
    · exfalso
      have hmem := List.mem_of_getElem? hw
      obtain ⟨r, hr, rfl⟩ := List.mem_map.1 hmem
      have h := hall r hr
      exact absurd (lt_of_lt_of_le h (hv.trans hwl)) (lt_irrefl _)
    · exact le_refl _

/-- z1 is the depth to 1000 m/s. -/
theorem C06_z1 (p : List (K × K)) (hp : p ≠ []) :
    ∃ d, calcZ1 p = .ok d ∧
      ((∃ i, FirstReach p 1000 i ∧ d = topDepth (p.map Prod.fst) i) ∨
       ((∀ r ∈ p, r.2 < 1000) ∧ d = (p.map Prod.fst).sum)) :=
  C06_basin_depth p hp 1000

example : calcBasinDepth demoProfile 400 = .ok 10 ∧ calcBasinDepth demoProfile 401 = .ok 30 ∧
    calcZ1 demoProfile = .ok 30 := by decide +kernel

/-! ## C07 -/

section C07
variable [FloorRing K] {P : Type*}

/-- Valid rows with additional columns. -/
def Spec.ValidRows (rows : List (LRow K P)) : Prop :=
  rows ≠ [] ∧ (∀ r ∈ rows.dropLast, 0 < r.thk) ∧ (∀ r ∈ rows, 0 ≤ r.thk ∧ 0 < r.vs)

/-- C07, what holds for every valid profile.  Each layer becomes a non-empty group of
sub-layers of the same velocity and properties, none thicker than Vs/225; a
zero-thickness half space is kept as it is.  The total thickness of a group is at
least that of the layer and exceeds it by at most one sub-layer.
Missing from the full property: equality of the total thickness (see
`C07_total_thickness_violated`; it holds under `C07_column_preserved_partial`). -/
theorem C07_sublayers_partial (rows : List (LRow K P)) (h : ValidRows rows) :
    ∃ groups : List (List (LRow K P)), stratify rows = groups.flatten ∧
      List.Forall₂ (fun r g => g ≠ [] ∧
        (∀ s ∈ g, s.vs = r.vs ∧ s.rest = r.rest ∧ s.thk ≤ r.vs / 225 ∧ (0 < r.thk → 0 < s.thk)) ∧
        r.thk ≤ (g.map LRow.thk).sum ∧ (g.map LRow.thk).sum ≤ r.thk + r.vs / 225 ∧
        (r.thk = 0 → g = [r])) rows groups := by
  obtain ⟨hne, hpos, hall⟩ := h
  have base : ∀ l : List (LRow K P), (∀ r ∈ l, 0 < r.thk ∧ 0 < r.vs) →
      List.Forall₂ (fun r g => g ≠ [] ∧
        (∀ s ∈ g, s.vs = r.vs ∧ s.rest = r.rest ∧ s.thk ≤ r.vs / 225 ∧ (0 < r.thk → 0 < s.thk)) ∧
        r.thk ≤ (g.map LRow.thk).sum ∧ (g.map LRow.thk).sum ≤ r.thk + r.vs / 225 ∧
        (r.thk = 0 → g = [r])) l (l.map stratifyLayer) := by
    intro l hl
    induction l with
    | nil => exact .nil
    | cons r l ih =>
      obtain ⟨ht, hv⟩ := hl r (by simp)
      obtain ⟨a, b, c, d⟩ := stratifyLayer_spec r ht hv
      refine .cons ⟨a, fun s hs => ?_, c, d, fun h0 => absurd h0 ht.ne'⟩ (ih fun r' hr' => hl r' (by simp [hr']))
      obtain ⟨b1, b2, b3, b4⟩ := b s hs
      exact ⟨b1, b2, b4, fun _ => b3⟩
  have hlast := List.getLast?_eq_getLast_of_ne_nil hne
  have hmem := List.getLast_mem hne
  obtain ⟨hl0, hlv⟩ := hall _ hmem
  by_cases hz : (rows.getLast hne).thk = 0
  · refine ⟨rows.dropLast.map stratifyLayer ++ [[rows.getLast hne]], ?_, ?_⟩
    · simp [stratify, hlast, hz, List.flatMap, List.flatten_append]
    · conv => arg 2; rw [← List.dropLast_append_getLast hne]
      refine List.rel_append (base rows.dropLast fun r hr => ⟨hpos r hr, (hall r (List.mem_of_mem_dropLast hr)).2⟩) ?_
      refine .cons ⟨by simp, ?_, by simp, ?_, fun _ => rfl⟩ .nil
      · intro s hs
        simp only [List.mem_singleton] at hs
        subst hs
        refine ⟨rfl, rfl, ?_, fun h => h⟩
        rw [hz]; positivity
      · simp only [List.map_cons, List.map_nil, List.sum_cons, List.sum_nil, add_zero]
        have : 0 < (rows.getLast hne).vs / 225 := by positivity
        linarith
  · refine ⟨rows.map stratifyLayer, ?_, ?_⟩
    · simp [stratify, hlast, hz, List.flatMap]
    · apply base
      intro r hr
      refine ⟨?_, (hall r hr).2⟩
      rw [← List.dropLast_append_getLast hne] at hr
      rcases List.mem_append.1 hr with h | h
      · exact hpos r h
      · simp only [List.mem_singleton] at h
        subst h
        exact lt_of_le_of_ne hl0 (Ne.symm hz)

/-- C07, the soil column is preserved exactly (total thickness and velocity, damping,
density, material at every depth) when each layer's ratio thickness/(Vs/225) is an
exact integer or stays away from integers by more than numpy's tolerance
1e-8 + 1e-5·ratio.  Missing from the full property: ratios inside the tolerance band,
for which it is false (`C07_total_thickness_violated`). -/
theorem C07_column_preserved_partial (rows : List (LRow K P)) (h : ValidRows rows)
    (hx : ∀ r ∈ rows, ∀ m : ℤ, (m : K) * (r.vs / 225) = r.thk ∨
      1 / 10 ^ 8 + 1 / 10 ^ 5 * (r.thk / (r.vs / 225)) < |(m : K) - r.thk / (r.vs / 225)|) :
    ((stratify rows).map LRow.thk).sum = (rows.map LRow.thk).sum ∧
    ∀ z x, HasAt ((stratify rows).map fun r => (r.thk, (r.vs, r.rest))) z x ↔
      HasAt (rows.map fun r => (r.thk, (r.vs, r.rest))) z x := by
  obtain ⟨hne, hpos, hall⟩ := h
  have sumL : ∀ l : List (LRow K P), (∀ r ∈ l, ((stratifyLayer r).map LRow.thk).sum = r.thk) →
      ((l.flatMap stratifyLayer).map LRow.thk).sum = (l.map LRow.thk).sum := by
    intro l hl
    induction l with
    | nil => rfl
    | cons r l ih =>
      simp only [List.flatMap_cons, List.map_append, List.sum_append, List.map_cons, List.sum_cons]
      rw [hl r (by simp), ih fun r' hr' => hl r' (by simp [hr'])]
  have hlast := List.getLast?_eq_getLast_of_ne_nil hne
  obtain ⟨hl0, hlv⟩ := hall _ (List.getLast_mem hne)
  have hdl : ∀ r ∈ rows.dropLast, 0 < r.thk ∧ 0 < r.vs ∧ ((stratifyLayer r).map LRow.thk).sum = r.thk := by
    intro r hr
    have hr' := List.mem_of_mem_dropLast hr
    exact ⟨hpos r hr, (hall r hr').2, stratifyLayer_exact r (hpos r hr) (hall r hr').2 (hx r hr')⟩
  by_cases hz : (rows.getLast hne).thk = 0
  · have hs : stratify rows = rows.dropLast.flatMap stratifyLayer ++ [rows.getLast hne] := by
      simp [stratify, hlast, hz]
    refine ⟨?_, ?_⟩
    · rw [hs, List.map_append, List.sum_append, sumL _ fun r hr => (hdl r hr).2.2]
      conv_rhs => rw [← List.dropLast_append_getLast hne, List.map_append, List.sum_append]
    · intro z x
      rw [hs]
      conv_rhs => rw [← List.dropLast_append_getLast hne]
      exact flatMap_stratify_hasAt rows.dropLast [rows.getLast hne] z x hdl (by simp [hz]) (by simp)
  · have hs : stratify rows = rows.flatMap stratifyLayer := by simp [stratify, hlast, hz]
    have hall' : ∀ r ∈ rows, 0 < r.thk ∧ 0 < r.vs ∧ ((stratifyLayer r).map LRow.thk).sum = r.thk := by
      intro r hr
      have hr0 := hr
      rw [← List.dropLast_append_getLast hne] at hr
      rcases List.mem_append.1 hr with h | h
      · exact hdl r h
      · simp only [List.mem_singleton] at h
        subst h
        have hp : 0 < (rows.getLast hne).thk := lt_of_le_of_ne hl0 (Ne.symm hz)
        exact ⟨hp, hlv, stratifyLayer_exact _ hp hlv (hx _ hr0)⟩
    refine ⟨by rw [hs]; exact sumL rows fun r hr => (hall' r hr).2.2, fun z x => ?_⟩
    rw [hs]
    have := flatMap_stratify_hasAt rows [] z x hall' (by simp) (by simpa using hne)
    rw [List.append_nil, List.append_nil] at this
    exact this

end C07

/-- C07 fails: a 3.00001 m layer with Vs = 225 m/s becomes four 1 m sub-layers, i.e.
the soil column grows from 3.00001 m to 4 m.  (The ratio is within `np.allclose` of
3, but its ceiling is 4.) -/
theorem C07_total_thickness_violated :
    ¬ ∀ rows : List (LRow ℚ Unit), ValidRows rows →
      ((stratify rows).map LRow.thk).sum = (rows.map LRow.thk).sum := by
  intro h
  have := h [⟨300001 / 100000, 225, ()⟩] (by
    refine ⟨by simp, by simp, ?_⟩
    intro r hr
    simp only [List.mem_singleton] at hr
    subst hr; norm_num)
  revert this
  decide +kernel

-- witness for the hypotheses: a 5 m layer at Vs = 450 m/s (ratio 2.5) over a half space
example : ValidRows [(⟨5, 450, ()⟩ : LRow ℚ Unit), ⟨0, 900, ()⟩] := by
  refine ⟨by simp, by simp, ?_⟩
  intro r hr
  simp only [List.mem_cons, List.not_mem_nil, or_false] at hr
  rcases hr with rfl | rfl <;> norm_num
example : stratify [(⟨5, 450, ()⟩ : LRow ℚ Unit), ⟨0, 900, ()⟩] =
    [⟨5 / 3, 450, ()⟩, ⟨5 / 3, 450, ()⟩, ⟨5 / 3, 450, ()⟩, ⟨0, 900, ()⟩] := by decide +kernel
example : ∀ m : ℤ, (m : ℚ) * (450 / 225) = 5 ∨
    1 / 10 ^ 8 + 1 / 10 ^ 5 * (5 / (450 / 225)) < |(m : ℚ) - 5 / (450 / 225)| := by
  intro m
  right
  have h : (m : ℚ) ≤ 2 ∨ (3 : ℚ) ≤ m := by
    rcases le_or_gt m 2 with h | h
    · left; exact_mod_cast h
    · right; exact_mod_cast h
  rcases h with h | h
  · rw [abs_of_neg (by norm_num; linarith)]; norm_num; linarith
  · rw [abs_of_pos (by norm_num; linarith)]; norm_num; linarith

/-! ## C12 -/

/-- C12 for mid-point queries of a positive-thickness list and for layer-top queries of
any list: one velocity per requested layer, that of the profile at the layer's
mid-point (top).  Missing from the full property: a trailing zero thickness with
`at_midpoint=True`, see `C12_halfspace_violated`. -/
theorem C12_query_thk_partial (p : List (K × K)) (hp : Valid p) (thk : List K) (hne : thk ≠ [])
    (ht : ∀ t ∈ thk, 0 ≤ t) (mid : Bool) (hlast : mid = true → thk.getLast? ≠ some 0) :
    ∃ vs, queryVsGivenThk p (.array thk) mid = .ok (vs, thk) ∧ vs.length = thk.length ∧
      ∀ i, i < thk.length → ∃ v, vs[i]? = some v ∧
        HasAt p (if mid then (topDepth thk i + topDepth thk (i + 1)) / 2 else topDepth thk i) v := by
  have hmk : ∀ dep : List K, thk2dep thk mid = .ok dep → dep.length = thk.length →
      (∀ i, i < thk.length → dep[i]? =
        some (if mid then (topDepth thk i + topDepth thk (i + 1)) / 2 else topDepth thk i)) →
      ∃ vs, queryVsGivenThk p (.array thk) mid = .ok (vs, thk) ∧ vs.length = thk.length ∧
      ∀ i, i < thk.length → ∃ v, vs[i]? = some v ∧
        HasAt p (if mid then (topDepth thk i + topDepth thk (i + 1)) / 2 else topDepth thk i) v := by
    intro dep hdep hlen hget
    have hnn : ∀ z ∈ dep, 0 ≤ z := by
      intro z hz
      obtain ⟨i, hi, rfl⟩ := List.getElem_of_mem hz
      have := hget i (by omega)
      rw [List.getElem?_eq_getElem hi] at this
      rw [Option.some.inj this]
      have h1 := topDepth_nonneg ht i
      have h2 := topDepth_nonneg ht (i + 1)
      split
      · linarith
      · exact h1
    obtain ⟨out, ho, hF⟩ := C02_query_depth p hp dep hnn
    refine ⟨out, ?_, by rw [← hF.length_eq, hlen], ?_⟩
    · simp [queryVsGivenThk, thkArray, hdep, ho, bind, Except.bind, pure, Except.pure]
    · intro i hi
      have hi1 : i < dep.length := by omega
      have hi2 : i < out.length := by rw [← hF.length_eq]; omega
      refine ⟨out[i], List.getElem?_eq_getElem hi2, ?_⟩
      have hz := hget i hi
      rw [List.getElem?_eq_getElem hi1] at hz
      rw [← Option.some.inj hz]
      exact List.Forall₂.get hF hi1 hi2
  cases mid with
  | false =>
    obtain ⟨dep, h1, h2, h3⟩ := C01_thk2dep_tops thk hne
    exact hmk dep h1 h2 (by simpa using h3)
  | true =>
    obtain ⟨dep, h1, h2, h3⟩ := C01_thk2dep_midpoints thk hne
    rw [if_neg (hlast rfl)] at h2
    exact hmk dep h1 h2 (by intro i hi; simpa using h3 i (by omega))

/-- With a scalar thickness the requested number of equal layers is built. -/
theorem C12_scalar (p : List (K × K)) (t : K) (n : Int) (mid : Bool) :
    (0 < n → queryVsGivenThk p (.scalar t (some n)) mid =
      queryVsGivenThk p (.array (List.replicate n.toNat t)) mid) ∧
    (n ≤ 0 → queryVsGivenThk p (.scalar t (some n)) mid = .error .valueError) ∧
    queryVsGivenThk p (.scalar t none) mid = .error .typeError := by
  refine ⟨fun h => ?_, fun h => ?_, rfl⟩
  · simp [queryVsGivenThk, thkArray, not_le.2 h]
  · simp [queryVsGivenThk, thkArray, h, bind, Except.bind]

/-- The automatic number of layers `ceil(z_max / thk)` covers the whole profile and
not more than one layer beyond it. -/
theorem C12_auto_layers [FloorRing K] (zmax t : K) (hz : 0 < zmax) (ht : 0 < t) :
    0 < ⌈zmax / t⌉ ∧ zmax ≤ (List.replicate ⌈zmax / t⌉.toNat t).sum ∧
      (List.replicate ⌈zmax / t⌉.toNat t).sum < zmax + t := by
  have hq : 0 < zmax / t := div_pos hz ht
  have hc := Int.ceil_pos.2 hq
  refine ⟨hc, ?_, ?_⟩ <;> rw [List.sum_replicate, nsmul_eq_mul, toNat_cast hc.le]
  · exact (div_le_iff₀ ht).1 (Int.le_ceil _)
  · have := mul_lt_mul_of_pos_right (Int.ceil_lt_add_one (zmax / t)) ht
    rwa [add_mul, div_mul_cancel₀ _ ht.ne', one_mul] at this

/-- C12 fails for mid-point queries of a thickness array ending with a half space:
the velocity array is one element short of the thickness array. -/
theorem C12_halfspace_violated :
    ∃ (p : List (ℚ × ℚ)) (thk : List ℚ) (vs : List ℚ), Valid p ∧ (∀ t ∈ thk, 0 ≤ t) ∧
      queryVsGivenThk p (.array thk) true = .ok (vs, thk) ∧ vs.length + 1 = thk.length :=
  ⟨demoProfile, [5, 5, 0], [200, 200], demoProfile_valid, by simp, by decide +kernel, rfl⟩

example : queryVsGivenThk demoProfile (.array [5, 10, 20]) true =
    .ok ([200, 400, 400], [5, 10, 20]) := by decide +kernel

end Verif
