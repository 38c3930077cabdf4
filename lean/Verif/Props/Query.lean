import Verif.Model.Query
import Verif.Props.SvmDisc

set_option linter.unusedSectionVars false
set_option linter.unusedVariables false

/-!
Property C125: profiles built from velocities queried at given depths.
-/

namespace Verif

open Spec

/-- The queried depth which decides the velocity at depth `z`: the deepest queried one not below `z`, and the
shallowest one for everything above all queried depths. -/
def Spec.Snap {K : Type} [LE K] [LT K] (a : List K) (z d : K) : Prop :=
  (d ∈ a ∧ d ≤ z ∧ ∀ e ∈ a, e ≤ z → e ≤ d) ∨ ((∀ e ∈ a, z < e) ∧ a.head? = some d)

variable {K : Type} [Field K] [LinearOrder K] [IsStrictOrderedRing K] [FloorRing K]

theorem flags_strict (a : List K) : (isSortedFlag a = true ∧ hasDuplicateFlag a = false) ↔ a.Pairwise (· < ·) := by
  rw [← List.isChain_iff_pairwise]
  unfold isSortedFlag hasDuplicateFlag
  induction a with
  | nil => simp [diff]
  | cons x l ih =>
    cases l with
    | nil => simp [diff]
    | cons y l =>
      rw [List.isChain_cons_cons, ← ih]
      simp only [diff, List.all_cons, List.any_cons, Bool.and_eq_true, decide_eq_true_eq, Bool.or_eq_false_iff,
        decide_eq_false_iff_not]
      constructor
      · rintro ⟨⟨h1, h2⟩, h3, h4⟩
        exact ⟨lt_of_le_of_ne (by linarith) (fun e => h3 (by rw [e, sub_self])), h2, h4⟩
      · rintro ⟨h1, h2, h4⟩
        exact ⟨⟨by linarith, h2⟩, by intro e; linarith, h4⟩

theorem dep2thkLoop_pos : ∀ (D : List K), D.Pairwise (· < ·) → (∀ t ∈ (dep2thkLoop D).dropLast, 0 < t) ∧
    (∀ t ∈ dep2thkLoop D, 0 ≤ t)
  | [], _ => by simp [dep2thkLoop]
  | [_], _ => by simp [dep2thkLoop]
  | d :: d' :: ds, h => by
    have hd : d < d' := (List.pairwise_cons.1 h).1 d' List.mem_cons_self
    have ih := dep2thkLoop_pos (d' :: ds) (List.pairwise_cons.1 h).2
    simp only [dep2thkLoop]
    rw [List.dropLast_cons_of_ne_nil (dep2thkLoop_ne_nil d' ds)]
    refine ⟨?_, ?_⟩
    · intro t ht
      rcases List.mem_cons.1 ht with rfl | ht
      · linarith
      · exact ih.1 t ht
    · intro t ht
      rcases List.mem_cons.1 ht with rfl | ht
      · linarith
      · exact ih.2 t ht

theorem dep2thkLoop_len : ∀ (D : List K), (dep2thkLoop D).length = D.length
  | [] => rfl
  | [_] => rfl
  | d :: d' :: ds => by simp only [dep2thkLoop, List.length_cons, dep2thkLoop_len (d' :: ds)]

theorem topDepth_dep2thk (D : List K) (hD : D.head? = some 0) (i : Nat) (hi : i < D.length) :
    D[i]? = some (topDepth (dep2thkLoop D) i) := by
  cases D with
  | nil => simp at hi
  | cons d ds =>
    have hd : d = 0 := by simpa using hD
    subst hd
    have h := zTop_getElem? 0 (dep2thkLoop (0 :: ds)) i (by rw [dep2thkLoop_len]; exact hi)
    rw [zTop_dep2thkLoop, zero_add] at h
    exact h

theorem sum_dep2thk (D : List K) (hD : D.head? = some 0) (l : K) (hl : D.getLast? = some l) :
    (dep2thkLoop D).sum = l := by
  have key : ∀ (ds : List K) (d : K), (dep2thkLoop (d :: ds)).sum = (d :: ds).getLast (by simp) - d := by
    intro ds
    induction ds with
    | nil => intro d; simp [dep2thkLoop]
    | cons e ds ih =>
      intro d
      simp only [dep2thkLoop, List.sum_cons, ih e]
      rw [List.getLast_cons (a := d) (List.cons_ne_nil e ds)]
      ring
  cases D with
  | nil => simp at hD
  | cons d ds =>
    have hd : d = 0 := by simpa using hD
    subst hd
    rw [key, sub_zero]
    rw [List.getLast?_eq_getLast_of_ne_nil (by simp)] at hl
    exact Option.some.inj hl

/-- A stacked profile of layer tops `D` and velocities `W`. -/
theorem stackProfile_ok (σ : Store K) (D W : List K) (hD : D.head? = some 0) (hs : D.Pairwise (· < ·))
    (hl : W.length = D.length) (hW : ∀ w ∈ W, 0 < w) :
    ∃ o σ' r5, stackProfile σ (dep2thkLoop D) W = .ok (o, σ') ∧ Consistent σ' o r5 ∧ Constructed r5 o ∧
      r5.map Row.tv = (dep2thkLoop D).zip W ∧
      (∀ l, D.getLast? = some l → o.zMax = l) ∧
      ∀ (i : Nat) (z d w : K), D[i]? = some d → d ≤ z → (∀ e, D[i + 1]? = some e → z < e) → W[i]? = some w →
        HasAt (r5.map Row.tv) z w := by
  have hlen : (dep2thkLoop D).length = W.length := by rw [dep2thkLoop_len, hl]
  have mf : ((dep2thkLoop D).zip W).map Prod.fst = dep2thkLoop D := List.map_fst_zip hlen.le
  have ms : ((dep2thkLoop D).zip W).map Prod.snd = W := List.map_snd_zip hlen.ge
  have hDne : D ≠ [] := by rintro rfl; simp at hD
  have hpos := dep2thkLoop_pos D hs
  have hval : Valid ((dep2thkLoop D).zip W) := by
    refine ⟨?_, ?_, ?_, ?_⟩
    · intro h
      have := congrArg List.length h
      rw [List.length_zip, ← hlen, dep2thkLoop_len, Nat.min_self] at this
      exact hDne (List.length_eq_zero_iff.1 this)
    · intro r hr
      have : r.1 ∈ (((dep2thkLoop D).zip W).map Prod.fst).dropLast := by
        rw [← List.map_dropLast]; exact List.mem_map_of_mem hr
      rw [mf] at this
      exact hpos.1 _ this
    · intro r hr
      have : r.1 ∈ ((dep2thkLoop D).zip W).map Prod.fst := List.mem_map_of_mem hr
      rw [mf] at this
      exact hpos.2 _ this
    · intro r hr
      have : r.2 ∈ ((dep2thkLoop D).zip W).map Prod.snd := List.mem_map_of_mem hr
      rw [ms] at this
      exact hW _ this
  obtain ⟨o, σ', r5, hmk, hcons, hconstr, htv⟩ := profileOf σ _ hval
  refine ⟨o, σ', r5, ?_, hcons, hconstr, htv, ?_, ?_⟩
  · unfold stackProfile
    rw [if_neg (by simp [hlen])]
    exact hmk
  · intro l hl'
    rw [hconstr.zmax, ← map_thk_of_tv, htv, mf, sum_dep2thk D hD l hl']
  · intro i z d w hd hdz hnext hw
    have hi : i < D.length := (List.getElem?_eq_some_iff.1 hd).1
    refine ⟨i, ⟨?_, ?_, ?_⟩, ?_⟩
    · rw [htv, mf, dep2thkLoop_len]; exact hi
    · rw [htv, mf]
      have := topDepth_dep2thk D hD i hi
      rw [hd] at this
      rw [← Option.some.inj this]; exact hdz
    · intro h
      rw [htv, mf] at h ⊢
      rw [dep2thkLoop_len] at h
      exact hnext _ (topDepth_dep2thk D hD (i + 1) h)
    · rw [htv, ms]; exact hw

/-- Arguments accepted for a profile: non-empty arrays of strictly increasing non-negative depths, and single
positive depths. -/
def Spec.GoodDepths {K : Type} [_root_.Field K] [LinearOrder K] : DepthArg K → Prop
  | .scalar d => 0 < d
  | .array a => a ≠ [] ∧ (∀ z ∈ a, 0 ≤ z) ∧ a.Pairwise (· < ·)
  | .other => False

theorem goodDepths_arr {d : DepthArg K} (h : GoodDepths d) :
    d.arr ≠ [] ∧ (∀ z ∈ d.arr, 0 ≤ z) ∧ d.arr.Pairwise (· < ·) := by
  cases d with
  | scalar d => exact ⟨by simp [DepthArg.arr], by simpa [DepthArg.arr] using le_of_lt h, by simp [DepthArg.arr]⟩
  | array a => exact h
  | other => exact h.elim

theorem queryDepth_ok (p : List (K × K)) (hp : Valid p) (d : DepthArg K) (hd : GoodDepths d) :
    ∃ vs, queryDepth p d = .ok vs ∧ queryVsAtDepth p d.arr = .ok vs ∧ List.Forall₂ (HasAt p) d.arr vs := by
  obtain ⟨vs, h1, h2⟩ := C02_query_depth p hp d.arr (goodDepths_arr hd).2.1
  refine ⟨vs, ?_, h1, h2⟩
  cases d with
  | scalar d => exact h1
  | array a => exact h1
  | other => exact hd.elim

theorem next_above {a : List K} (hs : a.Pairwise (· < ·)) {i : Nat} {d z : K} (hi : a[i]? = some d)
    (hmax : ∀ e ∈ a, e ≤ z → e ≤ d) (e : K) (he : a[i + 1]? = some e) : z < e := by
  by_contra hn
  have h1 := hmax e (List.mem_of_getElem? he) (not_lt.1 hn)
  obtain ⟨hi', ei⟩ := List.getElem?_eq_some_iff.1 hi
  obtain ⟨hj', ej⟩ := List.getElem?_eq_some_iff.1 he
  have := List.pairwise_iff_getElem.1 hs i (i + 1) hi' hj' (by omega)
  rw [ei, ej] at this
  exact absurd h1 (not_le.2 this)

/-- A profile queried at strictly increasing non-negative depths (`as_profile=True`) is a valid profile which
extends down to the deepest queried depth.  At every depth it has the velocity which the original profile has
at the deepest queried depth above (at the shallowest one for everything above all queried depths); in
particular the velocities at the queried depths are the queried ones. -/
theorem C125_profile (σ : Store K) (p : List (K × K)) (hp : Valid p) (d : DepthArg K) (hd : GoodDepths d) :
    ∃ o σ' r5, queryDepthProfile σ p d = .ok (o, σ') ∧ Consistent σ' o r5 ∧ Constructed r5 o ∧
      (∀ l, d.arr.getLast? = some l → o.zMax = l) ∧
      (∀ z y v, 0 ≤ z → Snap d.arr z y → HasAt p y v → HasAt (r5.map Row.tv) z v) ∧
      queryVsAtDepth (r5.map Row.tv) d.arr = queryVsAtDepth p d.arr := by
  obtain ⟨hne, hnn, hs⟩ := (goodDepths_arr hd)
  obtain ⟨vs, hq, hq', hfa⟩ := queryDepth_ok p hp d hd
  obtain ⟨hf1, hf2⟩ := (flags_strict d.arr).2 hs
  have hvl := hfa.length_eq
  have hvpos : ∀ w ∈ vs, 0 < w := by
    intro w hw
    obtain ⟨i, hi, rfl⟩ := List.getElem_of_mem hw
    have := (List.forall₂_iff_get.1 hfa).2 i (by rw [hvl]; exact hi) hi
    obtain ⟨r, hr, e⟩ := List.mem_map.1 (hasAt_mem this)
    simp only [List.get_eq_getElem] at e
    rw [← e]; exact hp.vs_pos r hr
  have hget : ∀ (i : Nat) y v, d.arr[i]? = some y → HasAt p y v → vs[i]? = some v := by
    intro i y v hy hv
    obtain ⟨hi, e⟩ := List.getElem?_eq_some_iff.1 hy
    have := (List.forall₂_iff_get.1 hfa).2 i hi (by rw [← hvl]; exact hi)
    simp only [List.get_eq_getElem, e] at this
    rw [List.getElem?_eq_getElem (by rw [← hvl]; exact hi), C02_velocity_unique p hp y _ _ hv this]
  -- the queried velocities follow from the velocity at every depth
  have fin : ∀ (r5 : List (Row K)), Valid (r5.map Row.tv) →
      (∀ z y v, 0 ≤ z → Snap d.arr z y → HasAt p y v → HasAt (r5.map Row.tv) z v) →
      queryVsAtDepth (r5.map Row.tv) d.arr = queryVsAtDepth p d.arr := by
    intro r5 hval hall
    obtain ⟨ws, hw1, hw2⟩ := C02_query_depth (r5.map Row.tv) hval d.arr hnn
    rw [hw1, hq']
    congr 1
    apply List.ext_getElem (by rw [← hw2.length_eq, hvl])
    intro i h1 h2
    have hia : i < d.arr.length := by rw [hvl]; exact h2
    have e1 := (List.forall₂_iff_get.1 hw2).2 i hia h1
    have e2 := (List.forall₂_iff_get.1 hfa).2 i hia h2
    simp only [List.get_eq_getElem] at e1 e2
    have hsn : Snap d.arr d.arr[i] d.arr[i] := Or.inl ⟨List.getElem_mem hia, le_refl _, fun e _ h => h⟩
    exact C02_velocity_unique _ hval _ _ _ e1 (hall _ _ _ (hnn _ (List.getElem_mem hia)) hsn e2)
  by_cases h0 : (0 : K) ∈ d.arr
  · -- the first queried depth is 0
    have hd0 : ∃ a, d = .array a := by
      cases d with
      | scalar x =>
        have : x = 0 := by simpa [DepthArg.arr, eq_comm] using h0
        have hx : (0 : K) < x := hd
        exact absurd this hx.ne'
      | array a => exact ⟨a, rfl⟩
      | other => exact hd.elim
    obtain ⟨a, rfl⟩ := hd0
    simp only [DepthArg.arr] at *
    obtain ⟨x, l, rfl⟩ := List.exists_cons_of_ne_nil hne
    have hx : x = 0 := by
      rcases List.mem_cons.1 h0 with h | h
      · exact h.symm
      · have h1 := (List.pairwise_cons.1 hs).1 0 h
        have h2 := hnn x List.mem_cons_self
        linarith
    subst hx
    obtain ⟨o, σ', r5, hst, hcons, hconstr, htv, hz, hat⟩ := stackProfile_ok σ (0 :: l) vs rfl hs hvl.symm hvpos
    have hall : ∀ z y v, 0 ≤ z → Snap (0 :: l) z y → HasAt p y v → HasAt (r5.map Row.tv) z v := by
      rintro z y v hz0 (⟨hy, hyz, hmax⟩ | ⟨habove, _⟩) hv
      · obtain ⟨i, hi⟩ := List.mem_iff_getElem?.1 hy
        exact hat i z y v hi hyz (next_above hs hi hmax) (hget i y v hi hv)
      · exact absurd (habove 0 List.mem_cons_self) (not_lt.2 hz0)
    refine ⟨o, σ', r5, ?_, hcons, hconstr, hz, hall, fin r5 hconstr.valid.valid hall⟩
    unfold queryDepthProfile
    simp only [DepthArg.arr, bind, Except.bind, hq, hf1, hf2, Bool.not_true, Bool.false_eq_true, if_false]
    have hany : (!(0 :: l).any fun z => decide (z = (0 : K))) = false := by simp
    simp only [hany, Bool.false_eq_true, if_false, dep2thk, ne_eq, not_true_eq_false, if_true]
    exact hst
  · -- a first layer with the velocity of the shallowest queried depth is added
    obtain ⟨x, l, hxl⟩ := List.exists_cons_of_ne_nil hne
    obtain ⟨v0, vt, hvv⟩ : ∃ v0 vt, vs = v0 :: vt := by
      cases vs with
      | nil => rw [hxl] at hvl; simp at hvl
      | cons v0 vt => exact ⟨v0, vt, rfl⟩
    have hD : (0 :: d.arr).Pairwise (· < ·) := by
      refine List.pairwise_cons.2 ⟨fun e he => lt_of_le_of_ne (hnn e he) ?_, hs⟩
      rintro rfl; exact h0 he
    obtain ⟨o, σ', r5, hst, hcons, hconstr, htv, hz, hat⟩ := stackProfile_ok σ (0 :: d.arr) (vs.take 1 ++ vs) rfl hD
      (by rw [List.length_append, List.length_cons, hvl, hvv]; simp; omega)
      (by
        intro w hw
        rcases List.mem_append.1 hw with h | h
        · exact hvpos w (List.mem_of_mem_take h)
        · exact hvpos w h)
    have hW : vs.take 1 ++ vs = v0 :: vs := by rw [hvv]; rfl
    rw [hW] at hst hat
    have hall : ∀ z y v, 0 ≤ z → Snap d.arr z y → HasAt p y v → HasAt (r5.map Row.tv) z v := by
      rintro z y v hz0 (⟨hy, hyz, hmax⟩ | ⟨habove, hhead⟩) hv
      · obtain ⟨i, hi⟩ := List.mem_iff_getElem?.1 hy
        exact hat (i + 1) z y v (by simpa using hi) hyz
          (fun e he => next_above hs hi hmax e (by simpa using he)) (by simpa using hget i y v hi hv)
      · refine hat 0 z 0 v rfl hz0 ?_ ?_
        · intro e he
          exact habove e (List.mem_of_getElem? (i := 0) (by simpa using he))
        · have : d.arr[0]? = some y := by rw [← List.head?_eq_getElem?]; exact hhead
          have := hget 0 y v this hv
          rw [hvv] at this
          simpa using this
    refine ⟨o, σ', r5, ?_, hcons, hconstr, ?_, hall, fin r5 hconstr.valid.valid hall⟩
    · unfold queryDepthProfile
      simp only [bind, Except.bind, hq, hf1, hf2, Bool.not_true, Bool.false_eq_true, if_false]
      rw [if_pos (by simpa using fun z hz => fun (e : z = 0) => h0 (e ▸ hz)), hW]
      simp only [dep2thk, ne_eq, not_true_eq_false, if_false, if_true]
      exact hst
    · intro l' hl'
      exact hz l' (by rw [List.getLast?_cons, hl']; rfl)

/-- Everything else is rejected: with TypeError for other types and for the number 0, with ValueError for
arrays which are empty, contain a negative number, or do not increase strictly. -/
theorem C125_rejects (σ : Store K) (p : List (K × K)) (hp : Valid p) (d : DepthArg K) (hd : ¬GoodDepths d) :
    queryDepthProfile σ p d = .error (match d with
      | .scalar x => if x = 0 then .typeError else .valueError
      | .array _ => .valueError
      | .other => .typeError) := by
  cases d with
  | other => rfl
  | scalar x =>
    have hx : ¬0 < x := hd
    by_cases h0 : x = 0
    · subst h0
      obtain ⟨vs, hq, _⟩ := C02_query_depth p hp [0] (by simp)
      unfold queryDepthProfile
      have hq' : queryDepth p (.scalar 0) = .ok vs := hq
      simp [hq', bind, Except.bind, DepthArg.arr, isSortedFlag, hasDuplicateFlag, diff]
    · have : queryDepth p (.scalar x) = .error .valueError :=
        C02_negative_depth p [x] x (by simp) (lt_of_le_of_ne (not_lt.1 hx) h0)
      unfold queryDepthProfile
      simp only [this, bind, Except.bind, if_neg h0]
  | array a =>
    dsimp only
    by_cases hn : ∀ z ∈ a, 0 ≤ z
    · obtain ⟨vs, hq, hfa⟩ := C02_query_depth p hp a hn
      have hq' : queryDepth p (.array a) = .ok vs := hq
      unfold queryDepthProfile
      simp only [hq', bind, Except.bind, DepthArg.arr]
      by_cases hs : a.Pairwise (· < ·)
      · have ha : a = [] := by
          by_contra h; exact hd ⟨h, hn, hs⟩
        subst ha
        have : vs = [] := by cases hfa; rfl
        subst this
        simp [isSortedFlag, hasDuplicateFlag, diff, dep2thk, dep2thkLoop, stackProfile]
      · by_cases h1 : isSortedFlag a = true
        · by_cases h2 : hasDuplicateFlag a = true
          · simp [h1, h2]
          · exact absurd ((flags_strict a).1 ⟨h1, by simpa using h2⟩) hs
        · simp [h1]
    · push Not at hn
      obtain ⟨z, hz, hz0⟩ := hn
      have : queryDepth p (.array a) = .error .valueError := C02_negative_depth p a z hz hz0
      unfold queryDepthProfile
      simp only [this, bind, Except.bind]

/-- Querying the resulting profile at the same depths again gives a profile with the same layers. -/
theorem C125_again (σ : Store K) (p : List (K × K)) (hp : Valid p) (d : DepthArg K) (hd : GoodDepths d)
    (o : VsObj K) (σ' : Store K) (r5 : List (Row K)) (h : queryDepthProfile σ p d = .ok (o, σ'))
    (hr : σ'[o.prof]? = some (.five r5)) :
    ∃ o₂ σ₂ s5, queryDepthProfile σ' (r5.map Row.tv) d = .ok (o₂, σ₂) ∧ σ₂[o₂.prof]? = some (.five s5) ∧
      ∀ z v, 0 ≤ z → (HasAt (s5.map Row.tv) z v ↔ HasAt (r5.map Row.tv) z v) := by
  obtain ⟨o₁, σ₁, q5, h1, hc1, hk1, _, hall1, hqq⟩ := C125_profile σ p hp d hd
  rw [h] at h1
  obtain ⟨rfl, rfl⟩ := Prod.mk.inj (Except.ok.inj h1)
  have : q5 = r5 := by
    have := hc1.prof
    rw [hr] at this
    injection this with this; injection this with this; exact this.symm
  subst this
  have hval := hk1.valid.valid
  obtain ⟨o₂, σ₂, s5, h2, hc2, hk2, _, hall2, _⟩ := C125_profile σ' (q5.map Row.tv) hval d hd
  refine ⟨o₂, σ₂, s5, h2, hc2.prof, ?_⟩
  obtain ⟨hne, hnn, hs⟩ := (goodDepths_arr hd)
  -- both profiles have the velocity of `p` at the deciding depth
  have key : ∀ z, 0 ≤ z → ∃ v, HasAt (s5.map Row.tv) z v ∧ HasAt (q5.map Row.tv) z v := by
    intro z hz
    obtain ⟨y, hy⟩ : ∃ y, Snap d.arr z y := by
      by_cases hex : ∃ e ∈ d.arr, e ≤ z
      · obtain ⟨m, hm, hmax⟩ := (d.arr.filter (fun e => decide (e ≤ z))).toFinset.exists_max_image id (by
          obtain ⟨e, he, hez⟩ := hex
          exact ⟨e, by simpa using ⟨he, hez⟩⟩)
        simp only [List.mem_toFinset, List.mem_filter, decide_eq_true_eq, id] at hm hmax
        exact ⟨m, Or.inl ⟨hm.1, hm.2, fun e he hez => hmax e ⟨he, hez⟩⟩⟩
      · push Not at hex
        obtain ⟨x, l, hxl⟩ := List.exists_cons_of_ne_nil hne
        exact ⟨x, Or.inr ⟨hex, by rw [hxl]; rfl⟩⟩
    have hya : y ∈ d.arr := by
      rcases hy with h | h
      · exact h.1
      · exact List.mem_of_head? h.2
    obtain ⟨vs, _, _, hfa⟩ := queryDepth_ok p hp d hd
    obtain ⟨i, hi⟩ := List.mem_iff_getElem?.1 hya
    obtain ⟨hil, ei⟩ := List.getElem?_eq_some_iff.1 hi
    have hv := (List.forall₂_iff_get.1 hfa).2 i hil (by rw [← hfa.length_eq]; exact hil)
    simp only [List.get_eq_getElem, ei] at hv
    have hyy : Snap d.arr y y := Or.inl ⟨hya, le_refl _, fun e _ h => h⟩
    exact ⟨_, hall2 z y _ hz hy (hall1 y y _ (hnn y hya) hyy hv), hall1 z y _ hz hy hv⟩
  intro z v hz
  obtain ⟨w, hw1, hw2⟩ := key z hz
  constructor
  · intro hv; rw [C02_velocity_unique _ hk2.valid.valid z v w hv hw1]; exact hw2
  · intro hv; rw [C02_velocity_unique _ hval z v w hv hw2]; exact hw1

-- the profile of `demoProfile` at 5, 15 and 40 m
example : GoodDepths (.array [5, 15, 40] : DepthArg ℚ) := ⟨by simp, by decide +kernel, by decide +kernel⟩
example : ((queryDepthProfile [] demoProfile (.array [5, 15, 40])).toOption.bind fun r => r.2[1]?) =
    some (.five [⟨5, 200, 1 / 24, 1800, 1⟩, ⟨10, 200, 1 / 24, 1800, 2⟩, ⟨25, 400, 1 / 48, 1800, 3⟩,
      ⟨0, 800, 1 / 96, 2000, 0⟩]) := by decide +kernel

end Verif
