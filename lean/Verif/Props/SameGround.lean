import Verif.Props.Transfer
import Verif.Model.Amplify
import Verif.Props.ProfileGeometry
import Verif.Props.VsProfile
import Verif.Proof.HasAt

/-!
C208: results for a profile depend on the ground it describes (the properties as functions of depth), not on how the ground is divided
into layers: VsZ, Vs30, basin depth and transfer functions.
-/

set_option linter.unusedSectionVars false
set_option linter.unusedVariables false

namespace Verif

namespace Spec

/-- Two profiles describe the same ground down to depth `Z`. -/
def SameDownTo {K V : Type*} [_root_.Field K] [LinearOrder K] (Z : K) (p q : List (K × V)) : Prop :=
  ∀ z x, z < Z → (HasAt p z x ↔ HasAt q z x)

/-- Two profiles describe the same ground. -/
def SameGround {K V : Type*} [_root_.Field K] [LinearOrder K] (p q : List (K × V)) : Prop :=
  ∀ z x, HasAt p z x ↔ HasAt q z x

end Spec

open Spec

section Ordered

variable {K : Type} [_root_.Field K] [LinearOrder K] [IsStrictOrderedRing K] {V : Type*}

theorem ttRec_shift (p : List (K × K)) : ∀ Z d e : K, ttRec Z d p = ttRec (Z - e) (d - e) p := by
  induction p with
  | nil => intro Z d e; rfl
  | cons r rest ih =>
    obtain ⟨t, v⟩ := r
    cases rest with
    | nil => intro Z d e; simp only [ttRec]; rw [show Z - e - (d - e) = Z - d by ring]
    | cons r' rest' =>
      intro Z d e
      simp only [ttRec]
      rw [ih Z (d + t) e, show d - e + t = d + t - e by ring, min_sub_sub_right,
        show min Z (d + t) - e - (d - e) = min Z (d + t) - d by ring]

theorem ttRec_head (Z t v : K) (r : K × K) (rest : List (K × K)) :
    ttRec Z 0 ((t, v) :: r :: rest) = max 0 (min Z t) / v + ttRec (Z - t) 0 (r :: rest) := by
  rw [ttRec, ttRec_shift (r :: rest) Z (0 + t) t]; simp

theorem hasAt_head0 (t : K) (v x : V) (rest : List (K × V)) (ht : 0 < t) (hr : ∀ s ∈ rest, 0 ≤ s.1) :
    HasAt ((t, v) :: rest) 0 x ↔ x = v := by
  cases rest with
  | nil => rw [hasAt_singleton]; simp
  | cons r rest =>
    rw [hasAt_cons t v x r rest 0 ht.le hr]
    constructor
    · rintro (⟨-, -, h⟩ | ⟨h, -⟩)
      · exact h
      · exact absurd h (not_le.2 ht)
    · intro h; exact Or.inl ⟨le_rfl, ht, h⟩

/-- The ground below the first layer. -/
theorem sameDown_tail {t v w Z} {r r' : K × V} {p q : List (K × V)} (ht : (0 : K) ≤ t) (hp : ∀ s ∈ r :: p, 0 ≤ s.1) (hq : ∀ s ∈ r' :: q, 0 ≤ s.1)
    (h : SameDownTo Z ((t, v) :: r :: p) ((t, w) :: r' :: q)) : SameDownTo (Z - t) (r :: p) (r' :: q) := by
  intro z x hz
  rcases lt_or_ge z 0 with h0 | h0
  · constructor
    · intro h; exact absurd (hasAt_nonneg hp h) (not_le.2 h0)
    · intro h; exact absurd (hasAt_nonneg hq h) (not_le.2 h0)
  · have := h (z + t) x (by linarith)
    rw [hasAt_cons t v x r p _ ht hp, hasAt_cons t w x r' q _ ht hq, add_sub_cancel_right] at this
    constructor
    · intro hh
      rcases this.1 (Or.inr ⟨by linarith, hh⟩) with ⟨-, h2, -⟩ | ⟨-, h2⟩
      · linarith
      · exact h2
    · intro hh
      rcases this.2 (Or.inr ⟨by linarith, hh⟩) with ⟨-, h2, -⟩ | ⟨-, h2⟩
      · linarith
      · exact h2

theorem hasAt_split (a b : K) (v x : V) (q : List (K × V)) (z : K) (ha : 0 ≤ a) (hb : 0 ≤ b) (hq : ∀ s ∈ q, 0 ≤ s.1) :
    HasAt ((a, v) :: (b, v) :: q) z x ↔ HasAt ((a + b, v) :: q) z x := by
  cases q with
  | nil =>
    rw [hasAt_singleton]
    refine hasAt_group_end [(a, v), (b, v)] v x z (by simp) ?_
    intro s hs
    simp only [List.mem_cons, List.not_mem_nil, or_false] at hs
    rcases hs with rfl | rfl
    · exact ⟨ha, rfl⟩
    · exact ⟨hb, rfl⟩
  | cons r q =>
    have := hasAt_group [(a, v), (b, v)] v x r q z (by
      intro s hs
      simp only [List.mem_cons, List.not_mem_nil, or_false] at hs
      rcases hs with rfl | rfl
      · exact ⟨ha, rfl⟩
      · exact ⟨hb, rfl⟩) hq
    rw [hasAt_cons (a + b) v x r q z (by linarith) hq]
    simpa using this

/-- Travel time through ground of one velocity. -/
theorem tt_uniform (v : K) : ∀ (q : List (K × K)) (Z : K), 0 ≤ Z → q ≠ [] → (∀ s ∈ q, 0 ≤ s.1) →
    (∀ z, 0 ≤ z → z < Z → HasAt q z v) → ttRec Z 0 q = Z / v
  | [], _, _, hne, _, _ => absurd rfl hne
  | [(s, w)], Z, hZ, _, _, h => by
    simp only [ttRec, sub_zero]
    rw [max_eq_right hZ]
    rcases hZ.eq_or_lt with rfl | h0
    · simp
    · have := (hasAt_singleton s w v 0).1 (h 0 le_rfl h0)
      rw [this.2]
  | (s, w) :: r :: q, Z, hZ, _, hn, h => by
    have hs : 0 ≤ s := hn (s, w) (by simp)
    have hr : ∀ y ∈ r :: q, 0 ≤ y.1 := fun y hy => hn y (by simp at hy ⊢; tauto)
    rw [ttRec_head]
    have hw : 0 < min Z s → w = v := by
      intro h0
      have := h 0 le_rfl (lt_of_lt_of_le h0 (min_le_left _ _))
      exact ((hasAt_head0 s w v (r :: q) (lt_of_lt_of_le h0 (min_le_right _ _)) hr).1 this).symm
    have h1 : max 0 (min Z s) / w = min Z s / v := by
      rw [max_eq_right (le_min hZ hs)]
      rcases (le_min hZ hs).eq_or_lt with h0 | h0
      · rw [← h0]; simp
      · rw [hw h0]
    rw [h1]
    rcases le_total Z s with hc | hc
    · rw [ttRec_zero_of_le _ _ _ hr (by linarith), min_eq_left hc, add_zero]
    · rw [tt_uniform v (r :: q) (Z - s) (by linarith) (by simp) hr ?_, min_eq_right hc, ← add_div]
      · congr 1; ring
      · intro z h0 h2
        have := h (z + s) (by linarith) (by linarith)
        rw [hasAt_cons s w v r q _ hs hr, add_sub_cancel_right] at this
        rcases this with ⟨-, h3, -⟩ | ⟨-, h3⟩
        · linarith
        · exact h3

theorem tt_const {t v Z : K} {p q : List (K × K)} (hZ : 0 < Z) (hq0 : q ≠ []) (hp : ∀ s ∈ (t, v) :: p, 0 ≤ s.1) (hq : ∀ s ∈ q, 0 ≤ s.1)
    (hc : p = [] ∨ Z ≤ t) (h : SameDownTo Z ((t, v) :: p) q) : ttRec Z 0 ((t, v) :: p) = ttRec Z 0 q := by
  have hu : ∀ z, 0 ≤ z → z < Z → HasAt ((t, v) :: p) z v := by
    intro z h0 h1
    cases p with
    | nil => exact (hasAt_singleton t v v z).2 ⟨h0, rfl⟩
    | cons r p =>
      rcases hc with hc | hc
      · simp at hc
      · exact (hasAt_cons t v v r p z (hp (t, v) (by simp)) fun y hy => hp y (by simp at hy ⊢; tauto)).2 (Or.inl ⟨h0, lt_of_lt_of_le h1 hc, rfl⟩)
  rw [tt_uniform v _ Z hZ.le (by simp) hp hu, tt_uniform v q Z hZ.le hq0 hq fun z h0 h1 => (h z v h1).1 (hu z h0 h1)]

theorem tt_same : ∀ (n : Nat) (p q : List (K × K)) (Z : K), p.length + q.length ≤ n → p ≠ [] → q ≠ [] → (∀ s ∈ p, 0 ≤ s.1) →
    (∀ s ∈ q, 0 ≤ s.1) → SameDownTo Z p q → ttRec Z 0 p = ttRec Z 0 q
  | 0, p, q, Z, hn, hp0, _, _, _, _ => by
    have := List.length_pos_iff.2 hp0
    omega
  | n + 1, p, q, Z, hn, hp0, hq0, hp, hq, h => by
    rcases le_or_gt Z 0 with hZ | hZ
    · rw [ttRec_zero_of_le _ _ _ hp hZ, ttRec_zero_of_le _ _ _ hq hZ]
    have hsymm : SameDownTo Z q p := fun z x hz => (h z x hz).symm
    match p, q, hp0, hq0 with
    | [(t, v)], q, _, hq0 => exact tt_const hZ hq0 hp hq (Or.inl rfl) h
    | p, [(s, w)], hp0, _ => exact (tt_const hZ hp0 hq hp (Or.inl rfl) hsymm).symm
    | (t, v) :: r :: p, (s, w) :: r' :: q, _, _ =>
      rcases le_or_gt Z t with hc | hc
      · exact tt_const hZ (by simp) hp hq (Or.inr hc) h
      rcases le_or_gt Z s with hc' | hc'
      · exact (tt_const hZ (by simp) hq hp (Or.inr hc') hsymm).symm
      have ht : 0 ≤ t := hp (t, v) (by simp)
      have hs : 0 ≤ s := hq (s, w) (by simp)
      have hp' : ∀ y ∈ r :: p, 0 ≤ y.1 := fun y hy => hp y (by simp at hy ⊢; tauto)
      have hq' : ∀ y ∈ r' :: q, 0 ≤ y.1 := fun y hy => hq y (by simp at hy ⊢; tauto)
      -- the common case: the first layer of the first profile is the thinner one
      have key : ∀ (t v : K) (r : K × K) (p : List (K × K)) (s w : K) (r' : K × K) (q : List (K × K)), t < Z → 0 ≤ t → t < s →
          (∀ y ∈ r :: p, 0 ≤ y.1) → (∀ y ∈ r' :: q, 0 ≤ y.1) → p.length + q.length + 4 ≤ n + 1 →
          SameDownTo Z ((t, v) :: r :: p) ((s, w) :: r' :: q) → ttRec Z 0 ((t, v) :: r :: p) = ttRec Z 0 ((s, w) :: r' :: q) := by
        intro t v r p s w r' q htZ ht hts hp' hq' hl h
        have e : (s, w) = (t + (s - t), w) := by rw [add_sub_cancel]
        have h2 : SameDownTo Z ((t, v) :: r :: p) ((t, w) :: (s - t, w) :: r' :: q) := by
          intro z x hz
          rw [h z x hz, hasAt_split t (s - t) w x (r' :: q) z ht (by linarith) hq', ← e]
        have hq2 : ∀ y ∈ (s - t, w) :: r' :: q, 0 ≤ y.1 := by
          intro y hy
          rcases List.mem_cons.1 hy with rfl | hy
          · simp only; linarith
          · exact hq' y hy
        have h3 := sameDown_tail ht hp' hq2 h2
        have ih := tt_same n (r :: p) ((s - t, w) :: r' :: q) (Z - t) (by simp only [List.length_cons]; omega) (by simp) (by simp) hp' hq2 h3
        have hsplit := ttRec_split Z 0 [] (r' :: q) t (s - t) w (by simp) ht (by linarith)
        simp only [List.nil_append] at hsplit
        rw [e, ← hsplit, ttRec_head, ttRec_head, ih]
        congr 1
        rcases ht.eq_or_lt with h0 | h0
        · rw [← h0, min_eq_right (by linarith)]; simp
        · have h4 := (h 0 v hZ).1 ((hasAt_head0 t v v (r :: p) h0 hp').2 rfl)
          rw [(hasAt_head0 s w v (r' :: q) (h0.trans hts) hq').1 h4]
      simp only [List.length_cons] at hn
      rcases lt_trichotomy t s with hts | hts | hts
      · exact key t v r p s w r' q hc ht hts hp' hq' (by omega) h
      · subst hts
        have ih := tt_same n (r :: p) (r' :: q) (Z - t) (by simp only [List.length_cons]; omega) (by simp) (by simp) hp' hq' (sameDown_tail ht hp' hq' h)
        rw [ttRec_head, ttRec_head, ih]
        congr 1
        rcases ht.eq_or_lt with h0 | h0
        · rw [← h0, min_eq_right hZ.le]; simp
        · have h4 := (h 0 v hZ).1 ((hasAt_head0 t v v (r :: p) h0 hp').2 rfl)
          rw [(hasAt_head0 t w v (r' :: q) h0 hq').1 h4]
      · exact (key s w r' q t v r p hc' hs hts hq' hp' (by omega) hsymm).symm

/-- C208: profiles that describe the same ground down to `Z` have the same travel time and the same VsZ (and Vs30, for `Z = 30`), however
the ground is divided into layers and whatever is below. -/
theorem C208_VsZ (p q : List (K × K)) (hp : Valid p) (hq : Valid q) (Z : K) (hZ : 0 < Z) (h : SameDownTo Z p q) :
    travelTime p Z = travelTime q Z ∧ calcVsZ p Z 1 = calcVsZ q Z 1 := by
  have e : travelTime p Z = travelTime q Z := by
    rw [travelTime_eq_ttRec, travelTime_eq_ttRec]
    exact tt_same _ p q Z le_rfl hp.nonempty hq.nonempty hp.thk_nonneg hq.thk_nonneg h
  refine ⟨e, ?_⟩
  rw [(C03_VsZ_option1 p hp Z hZ).2, (C03_VsZ_option1 q hq Z hZ).2, e]

/-- The same with the other option, which uses the total thickness, if the profiles are equally deep. -/
theorem C208_VsZ_option2 (p q : List (K × K)) (hp : Valid p) (hq : Valid q) (Z : K) (hZ : 0 < Z) (h : SameDownTo Z p q)
    (hd : (p.map Prod.fst).sum = (q.map Prod.fst).sum) (ht : 0 < (p.map Prod.fst).sum) : calcVsZ p Z 2 = calcVsZ q Z 2 := by
  rw [C03_VsZ_option2 p hp Z hZ ht, C03_VsZ_option2 q hq Z hZ (hd ▸ ht), hd]
  have := (C208_VsZ p q hp hq (min (q.map Prod.fst).sum Z) (lt_min (hd ▸ ht) hZ)
    fun z x hz => h z x (lt_of_lt_of_le hz (min_le_right _ _))).1
  rw [this]

theorem getElem?_map_lt {α β : Type*} {f : α → β} {l : List α} {i : Nat} (h : i < l.length) : (l.map f)[i]? = some (f l[i]) := by
  rw [List.getElem?_map, List.getElem?_eq_getElem h]; rfl

theorem topDepth_lt {p : List (K × K)} (hp : Valid p) {i : Nat} (h : i + 1 < p.length) :
    topDepth (p.map Prod.fst) i < topDepth (p.map Prod.fst) (i + 1) := by
  rw [topDepth_succ]
  have h1 : i < p.dropLast.length := by rw [List.length_dropLast]; omega
  have h2 := hp.thk_pos _ (List.getElem_mem h1)
  rw [List.getElem_dropLast] at h2
  have : (p.map Prod.fst).getD i 0 = p[i].1 := by
    rw [List.getD_eq_getElem?_getD, getElem?_map_lt (by omega : i < p.length)]; rfl
  rw [this]; linarith

/-- The basin depth is the smallest depth at which the velocity reaches the mark. -/
theorem reach_least {p : List (K × K)} (hp : Valid p) {v0 : K} {i : Nat} (h : FirstReach p v0 i) :
    (∃ v, v0 ≤ v ∧ HasAt p (topDepth (p.map Prod.fst) i) v) ∧ ∀ z v, HasAt p z v → v0 ≤ v → topDepth (p.map Prod.fst) i ≤ z := by
  obtain ⟨⟨v, hv, hv0⟩, hbefore⟩ := h
  have hi : i < p.length := by
    have := (List.getElem?_eq_some_iff.1 hv).1
    rwa [List.length_map] at this
  have hnn : ∀ t ∈ p.map Prod.fst, 0 ≤ t := by
    intro t ht
    obtain ⟨s, hs, rfl⟩ := List.mem_map.1 ht
    exact hp.thk_nonneg s hs
  constructor
  · refine ⟨v, hv0, i, ⟨by rw [List.length_map]; exact hi, le_rfl, fun hl => topDepth_lt hp (by rwa [List.length_map] at hl)⟩, hv⟩
  · rintro z x ⟨j, ⟨hj, hz, -⟩, hx⟩ h0
    have hij : i ≤ j := by
      by_contra hc
      exact absurd (hbefore j (by omega) x hx) (not_lt.2 h0)
    exact (topDepth_mono hnn hij).trans hz

/-- C208: profiles of equal thickness that describe the same ground have the same basin depths (z1 for 1000 m/s). -/
theorem C208_basin (p q : List (K × K)) (hp : Valid p) (hq : Valid q) (v0 : K) (h : SameGround p q)
    (hd : (p.map Prod.fst).sum = (q.map Prod.fst).sum) : calcBasinDepth p v0 = calcBasinDepth q v0 := by
  obtain ⟨d, h1, h2⟩ := C06_basin_depth p hp.nonempty v0
  obtain ⟨e, h3, h4⟩ := C06_basin_depth q hq.nonempty v0
  rw [h1, h3]
  have hmem : ∀ (l : List (K × K)) z x, HasAt l z x → ∃ r ∈ l, r.2 = x := by
    rintro l z x ⟨j, -, hx⟩
    obtain ⟨r, hr, rfl⟩ := List.mem_map.1 (List.mem_of_getElem? hx)
    exact ⟨r, hr, rfl⟩
  rcases h2 with ⟨i, hi, rfl⟩ | ⟨hno, rfl⟩ <;> rcases h4 with ⟨j, hj, rfl⟩ | ⟨hno', rfl⟩
  · obtain ⟨⟨v, hv, hv'⟩, hl⟩ := reach_least hp hi
    obtain ⟨⟨w, hw, hw'⟩, hl'⟩ := reach_least hq hj
    exact congrArg Except.ok (le_antisymm (hl _ w ((h _ _).2 hw') hw) (hl' _ v ((h _ _).1 hv') hv))
  · obtain ⟨⟨v, hv, hv'⟩, -⟩ := reach_least hp hi
    obtain ⟨r, hr, rfl⟩ := hmem q _ v ((h _ _).1 hv')
    exact absurd (hno' r hr) (not_lt.2 hv)
  · obtain ⟨⟨v, hv, hv'⟩, -⟩ := reach_least hq hj
    obtain ⟨r, hr, rfl⟩ := hmem p _ v ((h _ _).2 hv')
    exact absurd (hno r hr) (not_lt.2 hv)
  · rw [hd]

theorem hasAt_map {W : Type*} (f : V → W) (p : List (K × V)) (z : K) (y : W) :
    HasAt (p.map fun r => (r.1, f r.2)) z y ↔ ∃ x, HasAt p z x ∧ f x = y := by
  have e1 : (p.map fun r => (r.1, f r.2)).map Prod.fst = p.map Prod.fst := by simp
  have e2 : (p.map fun r => (r.1, f r.2)).map Prod.snd = (p.map Prod.snd).map f := by simp
  constructor
  · rintro ⟨i, hi, hx⟩
    rw [e1] at hi
    rw [e2, List.getElem?_map] at hx
    cases hq : (p.map Prod.snd)[i]? with
    | none => rw [hq] at hx; simp at hx
    | some x =>
      rw [hq] at hx
      exact ⟨x, ⟨i, hi, hq⟩, by simpa using hx⟩
  · rintro ⟨x, ⟨i, hi, hx⟩, rfl⟩
    refine ⟨i, by rw [e1]; exact hi, ?_⟩
    rw [e2, List.getElem?_map, hx]; rfl

theorem valid_of_valid5 {rows : List (Row K)} (hv : Valid5 rows) : Valid (rows.map Row.tv) := by
  refine ⟨by simp [hv.nonempty], ?_, ?_, ?_⟩
  · intro r hr
    rw [← List.map_dropLast] at hr
    obtain ⟨s, hs, rfl⟩ := List.mem_map.1 hr
    exact hv.thk_pos s hs
  · intro r hr
    obtain ⟨s, hs, rfl⟩ := List.mem_map.1 hr
    exact hv.thk_nonneg s hs
  · intro r hr
    obtain ⟨s, hs, rfl⟩ := List.mem_map.1 hr
    exact (hv.pos s hs).1

/-- C208: truncating a profile at a depth does not change VsZ for any `Z` up to that depth; the `vs30` of a profile truncated at 30 m or
deeper is the Vs30 of the original. -/
theorem C208_truncate [FloorRing K] (σ : Store K) (o : VsObj K) (rows : List (Row K)) (hc : Consistent σ o rows) (hv : Valid5 rows)
    (depth Vs : K) (hd : 0 < depth) (hV : 0 < Vs) :
    ∃ o' σ' rows', truncate σ o (some depth) (some Vs) = .ok (o', σ') ∧ Consistent σ' o' rows' ∧
      (∀ Z, 0 < Z → Z ≤ depth → calcVsZ (rows'.map Row.tv) Z 1 = calcVsZ (rows.map Row.tv) Z 1) ∧
      (30 ≤ depth → calcVs30 (rows.map Row.tv) 1 = .ok o'.vs30) := by
  obtain ⟨o', σ', rows', m, h1, h2, hcon, -, -, -, h3⟩ := C08_truncate σ o rows hc hv depth Vs hd hV
  have hval := valid_of_valid5 hcon.valid
  have hval' := valid_of_valid5 hv
  have main : ∀ Z, 0 < Z → Z ≤ depth → calcVsZ (rows'.map Row.tv) Z 1 = calcVsZ (rows.map Row.tv) Z 1 := ?_
  · refine ⟨o', σ', rows', h1, h2, main, fun h30 => ?_⟩
    unfold calcVs30
    rw [← main 30 (by norm_num) h30, (C03_VsZ_option1 _ hval 30 (by norm_num)).2, hcon.vs30]
  intro Z hZ hZd
  refine (C208_VsZ _ _ hval hval' Z hZ ?_).2
  intro z x hz
  have e1 : rows'.map Row.tv = (rows'.map fun r => (r.thk, (r.vs, r.xi, r.rho, r.mat))).map fun r => (r.1, r.2.1) := by
    rw [List.map_map]; rfl
  have e2 : rows.map Row.tv = (rows.map fun r => (r.thk, (r.vs, r.xi, r.rho, renumber m r))).map fun r => (r.1, r.2.1) := by
    rw [List.map_map]; rfl
  rw [e1, e2, hasAt_map Prod.fst, hasAt_map Prod.fst]
  refine exists_congr fun y => and_congr_left fun _ => ?_
  rw [h3 z y]
  constructor
  · rintro (⟨-, h⟩ | ⟨h, -⟩)
    · exact h
    · linarith
  · intro h; exact Or.inl ⟨by linarith, h⟩

end Ordered

/-! ## Transfer functions -/

/-- Thickness and material of a layer. -/
def layMat (l : Lay) : ℝ × (ℝ × ℝ × ℝ) := (l.h, (l.vs, l.xi, l.rho))

theorem dMat_mat (w : ℝ) {l l' x y : Lay} (h1 : l = l') (h2 : (layMat x).2 = (layMat y).2) : dMat w l x = dMat w l' y := by
  subst h1
  obtain ⟨hx, vx, xx, rx⟩ := x
  obtain ⟨hy, vy, xy, ry⟩ := y
  simp only [layMat, Prod.mk.injEq] at h2
  obtain ⟨rfl, rfl, rfl⟩ := h2
  rfl

theorem eMat_same (w : ℝ) : ∀ (n : Nat) (a b : List Lay) (l m : Lay), a.length + b.length ≤ n → (∀ x ∈ a, 0 < x.h ∧ 0 < x.vs ∧ 0 < x.rho) →
    (∀ x ∈ b, 0 < x.h ∧ 0 < x.vs ∧ 0 < x.rho) → 0 ≤ l.h → 0 ≤ m.h → (a.map Lay.h).sum = (b.map Lay.h).sum →
    SameGround ((a ++ [l]).map layMat) ((b ++ [m]).map layMat) → eMat w (a ++ [l]) = eMat w (b ++ [m])
  | n, [], [], l, m, _, _, _, _, _, _, _ => rfl
  | n, [], y :: b, l, m, _, _, hb, _, _, hs, _ => by
    exfalso
    have h0 := (hb y (by simp)).1
    have : 0 ≤ (b.map Lay.h).sum := List.sum_nonneg fun z hz => by
      obtain ⟨x, hx, rfl⟩ := List.mem_map.1 hz
      exact (hb x (by simp [hx])).1.le
    simp at hs; linarith
  | n, x :: a, [], l, m, _, ha, _, _, _, hs, _ => by
    exfalso
    have h0 := (ha x (by simp)).1
    have : 0 ≤ (a.map Lay.h).sum := List.sum_nonneg fun z hz => by
      obtain ⟨y, hy, rfl⟩ := List.mem_map.1 hz
      exact (ha y (by simp [hy])).1.le
    simp at hs; linarith
  | 0, x :: a, y :: b, l, m, hn, _, _, _, _, _, _ => by simp at hn
  | n + 1, x :: a, y :: b, l, m, hn, ha, hb, hl, hm, hs, h => by
    have tail_ne : ∀ (c : List Lay) (k : Lay), ∃ r q, c ++ [k] = r :: q := by
      intro c k
      cases c with
      | nil => exact ⟨k, [], rfl⟩
      | cons r q => exact ⟨r, q ++ [k], rfl⟩
    have nn : ∀ (c : List Lay) (k : Lay), (∀ x ∈ c, 0 < x.h ∧ 0 < x.vs ∧ 0 < x.rho) → 0 ≤ k.h → ∀ s ∈ (c ++ [k]).map layMat, 0 ≤ s.1 := by
      intro c k hc hk s hs
      obtain ⟨u, hu, rfl⟩ := List.mem_map.1 hs
      rcases List.mem_append.1 hu with h | h
      · exact (hc u h).1.le
      · rw [List.mem_singleton.1 h]; exact hk
    -- one common first layer
    have strip : ∀ (x y : Lay) (a b : List Lay) (l m : Lay), x.h = y.h → (∀ z ∈ x :: a, 0 < z.h ∧ 0 < z.vs ∧ 0 < z.rho) →
        (∀ z ∈ y :: b, 0 < z.h ∧ 0 < z.vs ∧ 0 < z.rho) → 0 ≤ l.h → 0 ≤ m.h → a.length + b.length ≤ n →
        ((x :: a).map Lay.h).sum = ((y :: b).map Lay.h).sum → SameGround ((x :: a ++ [l]).map layMat) ((y :: b ++ [m]).map layMat) →
        eMat w (x :: a ++ [l]) = eMat w (y :: b ++ [m]) := by
      intro x y a b l m hxy ha hb hl hm hlen hs h
      have na := nn a l (fun z hz => ha z (by simp [hz])) hl
      have nb := nn b m (fun z hz => hb z (by simp [hz])) hm
      obtain ⟨r, p, hrp⟩ := tail_ne a l
      obtain ⟨r', q, hrq⟩ := tail_ne b m
      have hx0 := (ha x (by simp)).1
      have hy0 := (hb y (by simp)).1
      have e1 : (x :: a ++ [l]).map layMat = (x.h, (layMat x).2) :: (a ++ [l]).map layMat := rfl
      have e2 : (y :: b ++ [m]).map layMat = (x.h, (layMat y).2) :: (b ++ [m]).map layMat := by rw [hxy]; rfl
      rw [e1, e2] at h
      have hmat : (layMat x).2 = (layMat y).2 := by
        have := (h 0 (layMat x).2).1 ((hasAt_head0 _ _ _ _ hx0 na).2 rfl)
        exact (hasAt_head0 _ _ _ _ hx0 nb).1 this
      have hxy' : x = y := by
        obtain ⟨hx, vx, xx, rx⟩ := x
        obtain ⟨hy, vy, xy, ry⟩ := y
        simp only [layMat, Prod.mk.injEq] at hmat hxy
        obtain ⟨rfl, rfl, rfl⟩ := hmat
        subst hxy
        rfl
      have htail : SameGround ((a ++ [l]).map layMat) ((b ++ [m]).map layMat) := by
        intro z u
        simp only [hrp, hrq] at h na nb ⊢
        exact sameDown_tail (Z := z + x.h + 1) hx0.le na nb (fun z x _ => h z x) z u (by linarith)
      have ih := eMat_same w n a b l m hlen (fun z hz => ha z (by simp [hz])) (fun z hz => hb z (by simp [hz])) hl hm
        (by simp only [List.map_cons, List.sum_cons] at hs; linarith) htail
      rw [List.cons_append, List.cons_append]
      simp only [hrp, hrq] at ih htail na nb ⊢
      rw [eMat_cons, eMat_cons, ih]
      congr 1
      refine dMat_mat w hxy' ?_
      -- material below the first layer
      by_cases hr0 : 0 < r.h
      · have h5 := (htail 0 (layMat r).2).1 ((hasAt_head0 _ _ _ _ hr0 (fun s hs => na s (by simp only [List.map_cons, List.mem_cons]; right; exact hs))).2 rfl)
        by_cases hr0' : 0 < r'.h
        · exact (hasAt_head0 _ _ _ _ hr0' (fun s hs => nb s (by simp only [List.map_cons, List.mem_cons]; right; exact hs))).1 h5
        · have hq : q = [] := by
            cases b with
            | nil => simp only [List.nil_append, List.cons.injEq] at hrq; exact hrq.2.symm
            | cons c b =>
              simp only [List.cons_append, List.cons.injEq] at hrq
              exact absurd (hrq.1 ▸ (hb c (by simp)).1) hr0'
          rw [hq] at h5
          exact ((hasAt_singleton _ _ _ _).1 h5).2
      · have hp0 : p = [] := by
          cases a with
          | nil => simp only [List.nil_append, List.cons.injEq] at hrp; exact hrp.2.symm
          | cons c a =>
            simp only [List.cons_append, List.cons.injEq] at hrp
            exact absurd (hrp.1 ▸ (ha c (by simp)).1) hr0
        rw [hp0] at htail
        have h5 := (htail 0 (layMat r).2).1 ((hasAt_singleton _ _ _ _).2 ⟨le_rfl, rfl⟩)
        by_cases hr0' : 0 < r'.h
        · exact (hasAt_head0 _ _ _ _ hr0' (fun s hs => nb s (by simp only [List.map_cons, List.mem_cons]; right; exact hs))).1 h5
        · have hq : q = [] := by
            cases b with
            | nil => simp only [List.nil_append, List.cons.injEq] at hrq; exact hrq.2.symm
            | cons c b =>
              simp only [List.cons_append, List.cons.injEq] at hrq
              exact absurd (hrq.1 ▸ (hb c (by simp)).1) hr0'
          rw [hq] at h5
          exact ((hasAt_singleton _ _ _ _).1 h5).2
    -- the first layer of the second column is divided
    have key : ∀ (x y : Lay) (a b : List Lay) (l m : Lay), x.h < y.h → (∀ z ∈ x :: a, 0 < z.h ∧ 0 < z.vs ∧ 0 < z.rho) →
        (∀ z ∈ y :: b, 0 < z.h ∧ 0 < z.vs ∧ 0 < z.rho) → 0 ≤ l.h → 0 ≤ m.h → a.length + b.length + 1 ≤ n →
        ((x :: a).map Lay.h).sum = ((y :: b).map Lay.h).sum → SameGround ((x :: a ++ [l]).map layMat) ((y :: b ++ [m]).map layMat) →
        eMat w (x :: a ++ [l]) = eMat w (y :: b ++ [m]) := by
      intro x y a b l m hxy ha hb hl hm hlen hs h
      have hx0 := (ha x (by simp)).1
      obtain ⟨hy0, hyv, hyr⟩ := hb y (by simp)
      obtain ⟨r', q, hrq⟩ := tail_ne b m
      have nb := nn b m (fun z hz => hb z (by simp [hz])) hm
      have hsp := eMat_split w y hyv hyr x.h (y.h - x.h) r' q []
      simp only [List.nil_append, add_sub_cancel] at hsp
      have e : eMat w (y :: b ++ [m]) = eMat w (({ y with h := x.h } : Lay) :: ({ y with h := y.h - x.h } : Lay) :: b ++ [m]) := by
        rw [List.cons_append, List.cons_append, List.cons_append, hrq]; exact hsp.symm
      rw [e]
      refine strip x { y with h := x.h } a ({ y with h := y.h - x.h } :: b) l m rfl ha ?_ hl hm (by simp only [List.length_cons]; omega) ?_ ?_
      · intro z hz
        rcases List.mem_cons.1 hz with rfl | hz
        · exact ⟨hx0, hyv, hyr⟩
        · rcases List.mem_cons.1 hz with rfl | hz
          · exact ⟨by simp only; linarith, hyv, hyr⟩
          · exact hb z (by simp [hz])
      · simp only [List.map_cons, List.sum_cons] at hs ⊢
        linarith
      · intro z u
        rw [h z u]
        have := hasAt_split x.h (y.h - x.h) (layMat y).2 u ((b ++ [m]).map layMat) z hx0.le (by linarith) nb
        rw [add_sub_cancel] at this
        exact this.symm
    simp only [List.length_cons] at hn
    rcases lt_trichotomy x.h y.h with hxy | hxy | hxy
    · exact key x y a b l m hxy ha hb hl hm (by omega) hs h
    · exact strip x y a b l m hxy ha hb hl hm (by omega) hs h
    · exact (key y x b a m l hxy hb ha hm hl (by omega) hs.symm fun z u => (h z u).symm).symm

/-- C208: two profiles whose bases are at the same depth and that have the same velocity, damping and density at every depth have the same
transfer functions at every frequency, however they are divided into layers. -/
theorem C208_transfer (w : ℝ) (a b : List Lay) (l m : Lay) (ha : ∀ x ∈ a, 0 < x.h ∧ 0 < x.vs ∧ 0 < x.rho)
    (hb : ∀ x ∈ b, 0 < x.h ∧ 0 < x.vs ∧ 0 < x.rho) (hl : 0 ≤ l.h) (hm : 0 ≤ m.h) (hd : (a.map Lay.h).sum = (b.map Lay.h).sum)
    (h : SameGround ((a ++ [l]).map fun x => (x.h, (x.vs, x.xi, x.rho))) ((b ++ [m]).map fun x => (x.h, (x.vs, x.xi, x.rho)))) :
    tfRo w (a ++ [l]) = tfRo w (b ++ [m]) ∧ tfIn w (a ++ [l]) = tfIn w (b ++ [m]) ∧ tfBh w (a ++ [l]) = tfBh w (b ++ [m]) := by
  have := eMat_same w _ a b l m le_rfl ha hb hl hm hd h
  unfold tfRo tfIn tfBh
  rw [this]
  exact ⟨rfl, rfl, rfl⟩

/-- Hence the whole tables returned by `linear_tf` are equal. -/
theorem C208_table (df fmax : ℝ) (a b : List Lay) (l m : Lay) (ha : ∀ x ∈ a, 0 < x.h ∧ 0 < x.vs ∧ 0 < x.rho)
    (hb : ∀ x ∈ b, 0 < x.h ∧ 0 < x.vs ∧ 0 < x.rho) (hl : 0 ≤ l.h) (hm : 0 ≤ m.h) (hd : (a.map Lay.h).sum = (b.map Lay.h).sum)
    (h : SameGround ((a ++ [l]).map fun x => (x.h, (x.vs, x.xi, x.rho))) ((b ++ [m]).map fun x => (x.h, (x.vs, x.xi, x.rho)))) :
    linearTf (a ++ [l]) df fmax = linearTf (b ++ [m]) df fmax := by
  unfold linearTf
  refine List.map_congr_left fun f _ => ?_
  obtain ⟨h1, h2, h3⟩ := C208_transfer (2 * Real.pi * f) a b l m ha hb hl hm hd h
  simp only [h1, h2, h3]

/-- Hence the response at the surface to any motion, or the motion deconvolved from it, is the same, with either boundary. -/
theorem C208_surface (a b : List Lay) (l m : Lay) (ha : ∀ x ∈ a, 0 < x.h ∧ 0 < x.vs ∧ 0 < x.rho)
    (hb : ∀ x ∈ b, 0 < x.h ∧ 0 < x.vs ∧ 0 < x.rho) (hl : 0 ≤ l.h) (hm : 0 ≤ m.h) (hd : (a.map Lay.h).sum = (b.map Lay.h).sum)
    (h : SameGround ((a ++ [l]).map fun x => (x.h, (x.vs, x.xi, x.rho))) ((b ++ [m]).map fun x => (x.h, (x.vs, x.xi, x.rho))))
    (x : Rec ℝ) (bd : BoundaryArg) (deconv : Bool) : linearSiteResp (a ++ [l]) x bd deconv = linearSiteResp (b ++ [m]) x bd deconv := by
  unfold linearSiteResp
  refine bind_congr fun fi => ?_
  rw [C208_table _ _ a b l m ha hb hl hm hd h]

/-- Non-vacuity: 10 m of soil, undivided and as 4 m and 6 m, over rock. -/
example : SameGround [((10 : ℚ), (200 : ℚ)), (0, 800)] [(4, 200), (6, 200), (0, 800)] := by
  intro z x
  have := hasAt_split 4 6 200 x [((0 : ℚ), (800 : ℚ))] z (by norm_num) (by norm_num) (by simp)
  rw [this]; norm_num

end Verif
