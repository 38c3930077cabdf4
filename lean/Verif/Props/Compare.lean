import Verif.Model.Compare
import Verif.Props.Spectrum
import Verif.Props.MotionObj

set_option linter.unusedSectionVars false
set_option linter.unusedVariables false

/-!
Property C127: comparing two records (`compare_two_accel`).
-/

namespace Verif

open Spec (times coeff)

section
variable {K : Type} [Field K] [LinearOrder K] [IsStrictOrderedRing K]

namespace Spec

/-- Times that increase. -/
def IncTimes (t : List K) : Prop := t.Pairwise (· < ·)

end Spec

open Spec (IncTimes)

theorem interpFrom_node (x v : K) : ∀ (l : List (K × K)) (p : K × K), IncTimes ((p :: l).map Prod.fst) → (x, v) ∈ p :: l →
    interpFrom x p l = v
  | [], p, _, h => by
    rw [List.mem_singleton] at h
    subst h; rfl
  | q :: l, p, hi, h => by
    rw [List.map_cons, List.map_cons, IncTimes, List.pairwise_cons] at hi
    obtain ⟨h1, h2⟩ := hi
    unfold interpFrom
    by_cases hx : x < q.1
    · rw [if_pos hx]
      rcases List.mem_cons.1 h with rfl | h
      · rw [if_pos (le_refl _)]
      · exfalso
        rw [List.pairwise_cons] at h2
        rcases List.mem_cons.1 h with rfl | h
        · exact lt_irrefl _ hx
        · exact absurd (h2.1 x (List.mem_map.2 ⟨(x, v), h, rfl⟩)) (not_lt.2 hx.le)
    · rw [if_neg hx]
      rcases List.mem_cons.1 h with rfl | h
      · exact absurd (h1 q.1 List.mem_cons_self) hx
      · exact interpFrom_node x v l q (by rw [List.map_cons]; exact h2) h

theorem interpFrom_after (x : K) : ∀ (l : List (K × K)) (p : K × K), (∀ q ∈ l, q.1 ≤ x) →
    interpFrom x p l = ((p :: l).getLast (List.cons_ne_nil _ _)).2
  | [], p, _ => rfl
  | q :: l, p, h => by
    unfold interpFrom
    rw [if_neg (not_lt.2 (h q List.mem_cons_self)), interpFrom_after x l q fun r hr => h r (List.mem_cons_of_mem _ hr),
      List.getLast_cons (a := p) (List.cons_ne_nil q l)]

theorem interpFrom_scale (c x : K) : ∀ (l : List (K × K)) (p : K × K),
    interpFrom x (p.1, c * p.2) (l.map fun q => (q.1, c * q.2)) = c * interpFrom x p l
  | [], p => rfl
  | q :: l, p => by
    rw [List.map_cons]
    unfold interpFrom
    simp only
    by_cases h1 : x < q.1
    · rw [if_pos h1, if_pos h1]
      by_cases h2 : x ≤ p.1
      · rw [if_pos h2, if_pos h2]
      · rw [if_neg h2, if_neg h2]; ring
    · rw [if_neg h1, if_neg h1]
      exact interpFrom_scale c x l q

theorem mapM_npInterp (p : K × K) (l : List (K × K)) (t : List K) :
    t.mapM (npInterp (p :: l)) = .ok (t.map fun x => interpFrom x p l) := by
  induction t with
  | nil => rfl
  | cons a t ih => rw [List.mapM_cons, ih]; rfl

theorem zip_map_pair {α β : Type} (f : α → β) (t : List α) : t.zip (t.map f) = t.map fun x => (x, f x) := by
  induction t with
  | nil => rfl
  | cons a t ih => rw [List.map_cons, List.zip_cons_cons, ih]; rfl

variable [FloorRing K]

/-- What alignment gives: both records interpolated at the common times. -/
theorem alignRecs_eq (p q : K × K) (x : Rec K) (p' q' : K × K) (y : Rec K) :
    alignRecs (p :: q :: x) (p' :: q' :: y) = (alignTimes ((p :: q :: x).map Prod.fst) ((p' :: q' :: y).map Prod.fst)).map
      fun t => (t.map fun s => (s, interpFrom s p (q :: x)), t.map fun s => (s, interpFrom s p' (q' :: y))) := by
  unfold alignRecs
  cases alignTimes ((p :: q :: x).map Prod.fst) ((p' :: q' :: y).map Prod.fst) with
  | error e => rfl
  | ok t =>
    simp only [bind, Except.bind, mapM_npInterp, zip_map_pair, Except.map, pure, Except.pure]

/-- The common times: multiples `dt, 2 dt, …` of the smaller time step, up to the first one not before the end of both
records. -/
theorem C127_grid (x y : Rec K) (dx dy ex ey : K) (hx : dtOf x = .ok dx) (hy : dtOf y = .ok dy) (px : 0 < dx) (py : 0 < dy)
    (lx : (times x).getLast? = some ex) (ly : (times y).getLast? = some ey) (he : 0 ≤ max ex ey) :
    ∃ t, alignTimes (times x) (times y) = .ok t ∧
      (∀ (k : Nat) s, t[k]? = some s → s = ((k : K) + 1) * min dx dy) ∧
      max ex ey ≤ (t.length : K) * min dx dy ∧ (t.length : K) * min dx dy < max ex ey + min dx dy := by
  match x, y, hx, hy with
  | p :: q :: x, p' :: q' :: y, hx, hy =>
    have hx : q.1 - p.1 = dx := Except.ok.inj hx
    have hy : q'.1 - p'.1 = dy := Except.ok.inj hy
    have hd : 0 < min dx dy := lt_min px py
    have hn : 0 ≤ ⌈max ex ey / min dx dy⌉ := Int.ceil_nonneg (div_nonneg he hd.le)
    obtain ⟨n, hn'⟩ := Int.eq_ofNat_of_zero_le hn
    have e1 : ((p :: q :: x).map Prod.fst).getLastD 0 = ex := by
      rw [List.getLastD_eq_getLast?]; unfold times at lx; rw [lx]; rfl
    have e2 : ((p' :: q' :: y).map Prod.fst).getLastD 0 = ey := by
      rw [List.getLastD_eq_getLast?]; unfold times at ly; rw [ly]; rfl
    rw [List.map_cons, List.map_cons] at e1 e2
    refine ⟨linspace (min dx dy) (min dx dy * (n : K)) n, ?_, ?_, ?_, ?_⟩
    · unfold times alignTimes
      simp only [List.map_cons, hx, hy, e1, e2, hn']
      rw [if_neg hd.ne', if_neg (by push Not; exact Int.natCast_nonneg n)]
      simp
    · intro k s hk
      have hkn : k < n := by
        have := (List.getElem?_eq_some_iff.1 hk).1
        rwa [linspace_length] at this
      rw [linspace_getElem? _ _ _ _ hkn] at hk
      rw [← Option.some.inj hk]
      rcases Nat.lt_or_ge n 2 with h1 | h2
      · have : k = 0 := by omega
        subst this; simp
      · have := cast_sub_one_ne (K := K) h2
        field_simp
        ring
    · rw [linspace_length]
      have : max ex ey / min dx dy ≤ n := by
        have := Int.le_ceil (max ex ey / min dx dy)
        rw [hn'] at this
        simpa using this
      rwa [div_le_iff₀ hd] at this
    · rw [linspace_length]
      have : (n : K) < max ex ey / min dx dy + 1 := by
        have := Int.ceil_lt_add_one (max ex ey / min dx dy)
        rw [hn'] at this
        simpa using this
      have h2 : (n : K) - 1 < max ex ey / min dx dy := by linarith
      rw [lt_div_iff₀ hd] at h2
      linarith

/-- Records of fewer than two samples are rejected. -/
theorem C127_rejects (smooth : Bool) (x y : Rec ℝ) (h : x.length < 2 ∨ y.length < 2) :
    compareTwo smooth x y = .error .valueError := by
  have : alignTimes (x.map Prod.fst) (y.map Prod.fst) = .error .valueError := by
    unfold alignTimes
    rcases h with h | h
    · match x, h with
      | [], _ => rfl
      | [a], _ => rfl
    · match x, y, h with
      | [], _, _ => rfl
      | [a], _, _ => rfl
      | a :: b :: x, [], _ => rfl
      | a :: b :: x, [c], _ => rfl
  unfold compareTwo alignRecs
  rw [this]
  rfl

/-- A record sampled at `dt, 2 dt, …, n dt` is compared as it is with every record that has a time step of at least `dt`
and does not end later. -/
theorem C127_kept (x y : Rec K) (dx dy ey : K) (hd : dtOf x = .ok dx) (hy : dtOf y = .ok dy) (px : 0 < dx) (hle : dx ≤ dy)
    (ht : times x = (List.range x.length).map fun k : Nat => ((k : K) + 1) * dx)
    (ly : (times y).getLast? = some ey) (he : ey ≤ (x.length : K) * dx) :
    ∃ b, alignRecs x y = .ok (x, b) ∧ times b = times x := by
  have h2 : 2 ≤ x.length := by
    match x, hd with
    | p :: q :: x, _ => simp
  have hlast : (times x).getLast? = some ((x.length : K) * dx) := by
    rw [ht, List.getLast?_eq_getElem?, List.length_map, List.length_range, List.getElem?_map,
      List.getElem?_range (by omega)]
    simp only [Option.map_some, Option.some.injEq]
    have : ((x.length - 1 : Nat) : K) + 1 = x.length := by
      rw [Nat.cast_sub (by omega)]; simp
    rw [this]
  have hpos : (0 : K) < x.length := by exact_mod_cast (by omega : 0 < x.length)
  obtain ⟨t, h1, h3, h4, h5⟩ := C127_grid x y dx dy _ ey hd hy px (lt_of_lt_of_le px hle) hlast ly
    (le_max_of_le_left (mul_pos hpos px).le)
  rw [min_eq_left hle] at h3 h4 h5
  rw [max_eq_left he] at h4 h5
  have hlen : t.length = x.length := by
    have a1 := le_of_mul_le_mul_right h4 px
    have a2 : (t.length : K) < x.length + 1 := by
      have : (t.length : K) * dx < ((x.length : K) + 1) * dx := by linarith
      exact lt_of_mul_lt_mul_right this px.le
    have a3 : x.length ≤ t.length := by exact_mod_cast a1
    have a4 : t.length < x.length + 1 := by exact_mod_cast a2
    omega
  have htt : t = times x := by
    apply List.ext_getElem?
    intro k
    rcases Nat.lt_or_ge k t.length with hk | hk
    · have e := h3 k _ (List.getElem?_eq_getElem hk)
      rw [List.getElem?_eq_getElem hk, e, ht, List.getElem?_map, List.getElem?_range (by omega)]
      rfl
    · rw [List.getElem?_eq_none hk, List.getElem?_eq_none (by rw [times, List.length_map]; omega)]
  have hinc : IncTimes (x.map Prod.fst) := by
    have : x.map Prod.fst = _ := ht
    rw [this, IncTimes, List.pairwise_map]
    refine List.Pairwise.imp ?_ (List.pairwise_lt_range (n := x.length))
    intro a b hab
    have : (a : K) < b := by exact_mod_cast hab
    exact mul_lt_mul_of_pos_right (by linarith) px
  match x, y, hd, hy with
  | p :: q :: x, p' :: q' :: y, _, _ =>
    refine ⟨t.map fun s => (s, interpFrom s p' (q' :: y)), ?_, ?_⟩
    · rw [alignRecs_eq]
      unfold times at h1
      rw [h1]
      simp only [Except.map, Except.ok.injEq, Prod.mk.injEq, and_true]
      rw [htt, times, List.map_map]
      conv_rhs => rw [← List.map_id (p :: q :: x)]
      apply List.map_congr_left
      intro r hr
      simp only [Function.comp]
      rw [interpFrom_node r.1 r.2 (q :: x) p hinc hr]
      rfl
    · rw [← htt]
      unfold times
      rw [List.map_map]
      exact List.map_id t

/-- After its end a record is continued with its last value, not with zero. -/
theorem C127_held (x y a b : Rec K) (h : alignRecs x y = .ok (a, b)) (k : Nat) (s v : K)
    (hk : b[k]? = some (s, v)) (hs : ∀ r ∈ y, r.1 ≤ s) : ∃ r, y.getLast? = some r ∧ v = r.2 := by
  match x, y, h with
  | [], _, h => simp [alignRecs, alignTimes, bind, Except.bind] at h
  | [_], _, h => simp [alignRecs, alignTimes, bind, Except.bind] at h
  | _ :: _ :: _, [], h => simp [alignRecs, alignTimes, bind, Except.bind] at h
  | _ :: _ :: _, [_], h => simp [alignRecs, alignTimes, bind, Except.bind] at h
  | p :: q :: x, p' :: q' :: y, h =>
    rw [alignRecs_eq] at h
    cases ha : alignTimes ((p :: q :: x).map Prod.fst) ((p' :: q' :: y).map Prod.fst) with
    | error e => rw [ha] at h; cases h
    | ok t =>
      rw [ha] at h
      cases h
      rw [List.getElem?_map] at hk
      obtain ⟨s', hs', e⟩ := Option.map_eq_some_iff.1 hk
      cases e
      refine ⟨_, List.getLast?_eq_some_getLast (List.cons_ne_nil _ _), ?_⟩
      rw [interpFrom_after _ _ _ fun r hr => hs r (List.mem_cons_of_mem _ hr)]

/-- A record starting at time 0 loses its first sample: two records which differ in the acceleration at time 0 only give the
same aligned records. -/
theorem C127_first_sample_violated (d v w : K) (q : K × K) (x y : Rec K) (hd : 0 < d) (hq : q.1 = d)
    (hy : ∃ dy, dtOf y = .ok dy ∧ d ≤ dy) :
    alignRecs ((0, v) :: q :: x) y = alignRecs ((0, w) :: q :: x) y := by
  obtain ⟨dy, hdy, hle⟩ := hy
  match y, hdy with
  | p' :: q' :: y, hdy =>
    have hdy : q'.1 - p'.1 = dy := Except.ok.inj hdy
    rw [alignRecs_eq, alignRecs_eq]
    have hsame : ((0, v) :: q :: x).map Prod.fst = ((0, w) :: q :: x).map Prod.fst := rfl
    rw [hsame]
    cases ha : alignTimes (((0, w) :: q :: x).map Prod.fst) ((p' :: q' :: y).map Prod.fst) with
    | error e => rfl
    | ok t =>
      have hge : ∀ s ∈ t, q.1 ≤ s := by
        unfold alignTimes at ha
        simp only [List.map_cons, sub_zero, hq, hdy, min_eq_left hle] at ha
        rw [if_neg hd.ne'] at ha
        split_ifs at ha
        cases ha
        intro s hs
        rw [hq]
        obtain ⟨k, hk⟩ := List.mem_iff_getElem?.1 hs
        set n := ⌈max ((0 :: d :: x.map Prod.fst).getLastD 0) ((p'.1 :: q'.1 :: y.map Prod.fst).getLastD 0) / d⌉ with hn
        have hkn : k < n.toNat := by
          have := (List.getElem?_eq_some_iff.1 hk).1
          rwa [linspace_length] at this
        rw [linspace_getElem? _ _ _ _ hkn] at hk
        rw [← Option.some.inj hk]
        have hn1 : (1 : K) ≤ n := by exact_mod_cast (by omega : (1 : Int) ≤ n)
        have hnn : (1 : K) ≤ (n.toNat : K) := by exact_mod_cast (by omega : 1 ≤ n.toNat)
        have : 0 ≤ (k : K) * ((d * n - d) / ((n.toNat : K) - 1)) :=
          mul_nonneg (Nat.cast_nonneg k) (div_nonneg (by nlinarith) (by linarith))
        linarith
      simp only [Except.map, Except.ok.injEq, Prod.mk.injEq, and_true]
      apply List.map_congr_left
      intro s hs
      have : ∀ p : K × K, interpFrom s p (q :: x) = interpFrom s q x := by
        intro p
        rw [interpFrom, if_neg (not_lt.2 (hge s hs))]
      rw [this, this]

end

section

/-- The parts of a comparison. -/
theorem compareTwo_inv {smooth : Bool} {x y : Rec ℝ} {r : Comparison} (h : compareTwo smooth x y = .ok r) :
    alignRecs x y = .ok (r.input, r.output) ∧ ∃ si so, fourierTransform false false r.input = .ok si ∧
      fourierTransform false false r.output = .ok so ∧ (∀ p ∈ si, p.2 ≠ 0) ∧ r.freq = si.map Prod.fst ∧
      r.ampl = (List.zipWith (fun (o i : ℝ × ℂ) => o.2 / i.2) so si).map (fun z => ‖z‖) ∧
      r.phase = (List.zipWith (fun (o i : ℝ × ℂ) => o.2 / i.2) so si).map Complex.arg ∧
      (smooth = false → r.smoothed = none) ∧
      (smooth = true → ∃ q, logSmooth { linSpace := false } r.ampl = .ok q ∧ r.smoothed = some q) := by
  unfold compareTwo at h
  cases ha : alignRecs x y with
  | error e => rw [ha] at h; cases h
  | ok ab =>
  cases hsi : fourierTransform false false ab.1 with
  | error e => simp only [ha, bind, Except.bind, hsi] at h; cases h
  | ok si =>
  cases hso : fourierTransform false false ab.2 with
  | error e => simp only [ha, bind, Except.bind, hsi, hso] at h; cases h
  | ok so =>
  simp only [ha, bind, Except.bind, hsi, hso] at h
  by_cases hz : ∃ p ∈ si, p.2 = 0
  · rw [if_pos hz] at h; cases h
  rw [if_neg hz] at h
  have hz' : ∀ p ∈ si, p.2 ≠ 0 := fun p hp h0 => hz ⟨p, hp, h0⟩
  cases smooth with
  | false =>
    simp only [Bool.false_eq_true, if_false, pure, Except.pure] at h
    cases h
    exact ⟨rfl, si, so, hsi, hso, hz', rfl, rfl, rfl, fun _ => rfl, fun h => by cases h⟩
  | true =>
    simp only [if_true] at h
    cases hl : logSmooth { linSpace := false } ((List.zipWith (fun (o i : ℝ × ℂ) => o.2 / i.2) so si).map fun z => ‖z‖) with
    | error e => rw [hl] at h; cases h
    | ok q =>
      rw [hl] at h
      simp only [Except.map, pure, Except.pure] at h
      cases h
      exact ⟨rfl, si, so, hsi, hso, hz', rfl, rfl, rfl, (fun h => by cases h), fun _ => ⟨q, hl, rfl⟩⟩

theorem mapM_len_eq {α β : Type} {f : α → Except PyErr β} {l : List α} {v : List β} (h : l.mapM f = .ok v) :
    v.length = l.length := by
  induction l generalizing v with
  | nil => cases h; rfl
  | cons a l ih =>
    rw [List.mapM_cons] at h
    cases hb : f a with
    | error e => rw [hb] at h; cases h
    | ok b =>
      cases hr : l.mapM f with
      | error e => rw [hb, hr] at h; cases h
      | ok r =>
        rw [hb, hr] at h
        cases h
        rw [List.length_cons, List.length_cons, ih hr]

theorem alignRecs_len {x y a b : Rec ℝ} (h : alignRecs x y = .ok (a, b)) : a.length = b.length ∧ times a = times b := by
  unfold alignRecs at h
  cases ha : alignTimes (x.map Prod.fst) (y.map Prod.fst) with
  | error e => rw [ha] at h; cases h
  | ok t =>
    simp only [ha, bind, Except.bind] at h
    cases hb : t.mapM (npInterp x) with
    | error e => rw [hb] at h; cases h
    | ok u =>
      cases hc : t.mapM (npInterp y) with
      | error e => rw [hb, hc] at h; cases h
      | ok v =>
        rw [hb, hc] at h
        cases h
        have l1 : u.length = t.length := (mapM_len_eq hb)
        have l2 : v.length = t.length := (mapM_len_eq hc)
        refine ⟨by rw [List.length_zip, List.length_zip, l1, l2], ?_⟩
        unfold times
        rw [List.map_fst_zip (by omega), List.map_fst_zip (by omega)]

/-- Amplification and phase at row `k` are magnitude and angle of the ratio of the discrete Fourier coefficients of `k`
cycles of the aligned records. -/
theorem C127_ratio (smooth : Bool) (x y : Rec ℝ) (r : Comparison) (h : compareTwo smooth x y = .ok r) :
    r.input.length = r.output.length ∧ r.ampl.length = (r.input.length + 1) / 2 ∧ r.phase.length = r.ampl.length ∧
    r.freq.length = r.ampl.length ∧
    ∀ k < r.ampl.length, coeff (r.input.map Prod.snd) k ≠ 0 ∧
      r.ampl[k]? = some ‖coeff (r.output.map Prod.snd) k / coeff (r.input.map Prod.snd) k‖ ∧
      r.phase[k]? = some (Complex.arg (coeff (r.output.map Prod.snd) k / coeff (r.input.map Prod.snd) k)) := by
  obtain ⟨ha, si, so, hsi, hso, hnz, hf, hamp, hph, _⟩ := compareTwo_inv h
  obtain ⟨hl, _⟩ := alignRecs_len ha
  obtain ⟨d1, _, _, l1, r1⟩ := C105_values_partial _ _ _ si hsi
  obtain ⟨_, _, _, l2, r2⟩ := C105_values_partial _ _ _ so hso
  simp only [Bool.false_eq_true, if_false] at l1 l2 r1 r2
  have lz : (List.zipWith (fun (o i : ℝ × ℂ) => o.2 / i.2) so si).length = (r.input.length + 1) / 2 := by
    rw [List.length_zipWith, l1, l2, ← hl, min_self]
  have la : r.ampl.length = (r.input.length + 1) / 2 := by rw [hamp, List.length_map, lz]
  refine ⟨hl, la, by rw [hph, List.length_map, lz, la], by rw [hf, List.length_map, l1, la], ?_⟩
  intro k hk
  rw [la] at hk
  have e1 := r1 k (by omega)
  have e2 := r2 k (by omega)
  have hn := hnz _ (List.mem_of_getElem? e1)
  refine ⟨hn, ?_, ?_⟩
  · rw [hamp, List.getElem?_map, List.getElem?_zipWith, e2, e1]; rfl
  · rw [hph, List.getElem?_map, List.getElem?_zipWith, e2, e1]; rfl

/-- A record compared with its multiple by `c` (in particular with itself, `c = 1`): the amplification is `|c|` and the
phase shift the angle of `c` at every frequency; the smoothed amplification is `|c|` as well. -/
theorem C127_multiple (smooth : Bool) (x : Rec ℝ) (c : ℝ) (r : Comparison)
    (h : compareTwo smooth x (x.map fun p => (p.1, c * p.2)) = .ok r) :
    (∀ a ∈ r.ampl, a = |c|) ∧ (∀ p ∈ r.phase, p = Complex.arg (c : ℂ)) ∧
    ∀ q, r.smoothed = some q → q = List.replicate r.ampl.length |c| := by
  obtain ⟨ha, _, _, _, _, _, _, _, _, h0, h1⟩ := compareTwo_inv h
  obtain ⟨hl, la, lp, _, hk⟩ := C127_ratio smooth _ _ r h
  have hval : r.output.map Prod.snd = (r.input.map Prod.snd).map (c * ·) := by
    match x, ha with
    | [], ha => simp [alignRecs, alignTimes, bind, Except.bind] at ha
    | [_], ha => simp [alignRecs, alignTimes, bind, Except.bind] at ha
    | p :: q :: x, ha =>
      rw [List.map_cons, List.map_cons, alignRecs_eq] at ha
      cases ht : alignTimes ((p :: q :: x).map Prod.fst)
          (((p.1, c * p.2) :: (q.1, c * q.2) :: x.map fun p => (p.1, c * p.2)).map Prod.fst) with
      | error e => rw [ht] at ha; cases ha
      | ok t =>
        rw [ht] at ha
        have := Except.ok.inj ha
        have e1 := (Prod.mk.inj this).1
        have e2 := (Prod.mk.inj this).2
        rw [← e1, ← e2, List.map_map, List.map_map, List.map_map]
        apply List.map_congr_left
        intro s _
        simp only [Function.comp]
        exact interpFrom_scale c s (q :: x) p
  have hratio : ∀ k < r.ampl.length, coeff (r.output.map Prod.snd) k / coeff (r.input.map Prod.snd) k = c := by
    intro k hk'
    rw [hval, coeff_scale, mul_div_cancel_right₀ _ (hk k hk').1]
  have hA : ∀ a ∈ r.ampl, a = |c| := by
    intro a ha'
    obtain ⟨k, hkl, rfl⟩ := List.mem_iff_getElem.1 ha'
    have e := (hk k hkl).2.1
    rw [List.getElem?_eq_getElem hkl, hratio k hkl] at e
    rw [Option.some.inj e]; simp
  refine ⟨hA, ?_, ?_⟩
  · intro p hp
    obtain ⟨k, hkl, rfl⟩ := List.mem_iff_getElem.1 hp
    have e := (hk k (by omega)).2.2
    rw [List.getElem?_eq_getElem hkl, hratio k (by omega)] at e
    exact Option.some.inj e
  · intro q hq
    cases smooth with
    | false => rw [h0 rfl] at hq; cases hq
    | true =>
      obtain ⟨q', hq', e⟩ := h1 rfl
      rw [hq] at e
      cases e
      rw [List.eq_replicate_iff.2 ⟨rfl, hA⟩] at hq'
      exact C104_log_constant _ _ _ _ rfl hq'

theorem alignTimes_comm {K : Type} [Field K] [LinearOrder K] [FloorRing K] (s t : List K) : alignTimes s t = alignTimes t s := by
  match s, t with
  | [], [] => rfl
  | [], [_] => rfl
  | [], _ :: _ :: _ => rfl
  | [_], [] => rfl
  | [_], [_] => rfl
  | [_], _ :: _ :: _ => rfl
  | _ :: _ :: _, [] => rfl
  | _ :: _ :: _, [_] => rfl
  | a :: b :: s, c :: d :: t =>
    unfold alignTimes
    simp only [min_comm, max_comm]

/-- Input and output exchanged: the records are aligned alike, every amplification becomes its reciprocal and every phase
shift (other than `π`) its negative. -/
theorem C127_swapped (s1 s2 : Bool) (x y : Rec ℝ) (r u : Comparison) (h : compareTwo s1 x y = .ok r)
    (hu : compareTwo s2 y x = .ok u) :
    u.input = r.output ∧ u.output = r.input ∧ u.ampl = r.ampl.map (·⁻¹) ∧
    u.phase = r.phase.map fun p => if p = Real.pi then Real.pi else -p := by
  obtain ⟨ha, _⟩ := compareTwo_inv h
  obtain ⟨ha', _⟩ := compareTwo_inv hu
  have hio : u.input = r.output ∧ u.output = r.input := by
    match x, y, ha, ha' with
    | [], _, ha, _ => simp [alignRecs, alignTimes, bind, Except.bind] at ha
    | [_], _, ha, _ => simp [alignRecs, alignTimes, bind, Except.bind] at ha
    | _ :: _ :: _, [], ha, _ => simp [alignRecs, alignTimes, bind, Except.bind] at ha
    | _ :: _ :: _, [_], ha, _ => simp [alignRecs, alignTimes, bind, Except.bind] at ha
    | p :: q :: x, p' :: q' :: y, ha, ha' =>
      rw [alignRecs_eq] at ha ha'
      rw [alignTimes_comm] at ha'
      cases ht : alignTimes ((p :: q :: x).map Prod.fst) ((p' :: q' :: y).map Prod.fst) with
      | error e => rw [ht] at ha; cases ha
      | ok t =>
        rw [ht] at ha ha'
        have e1 := Prod.mk.inj (Except.ok.inj ha)
        have e2 := Prod.mk.inj (Except.ok.inj ha')
        exact ⟨by rw [← e2.1, ← e1.2], by rw [← e2.2, ← e1.1]⟩
  obtain ⟨hl, la, lp, _, hk⟩ := C127_ratio s1 _ _ r h
  obtain ⟨hl', la', lp', _, hk'⟩ := C127_ratio s2 _ _ u hu
  rw [hio.1, hio.2] at hk'
  have hll : u.ampl.length = r.ampl.length := by rw [la', la, hio.1, hl]
  refine ⟨hio.1, hio.2, ?_, ?_⟩
  · apply List.ext_getElem?
    intro k
    rcases Nat.lt_or_ge k r.ampl.length with hlt | hge
    · rw [(hk' k (by omega)).2.1, List.getElem?_map, (hk k hlt).2.1]
      rw [Option.map_some, ← norm_inv, inv_div]
    · rw [List.getElem?_eq_none (by omega), List.getElem?_eq_none (by rw [List.length_map]; omega)]
  · apply List.ext_getElem?
    intro k
    rcases Nat.lt_or_ge k r.ampl.length with hlt | hge
    · rw [(hk' k (by omega)).2.2, List.getElem?_map, (hk k hlt).2.2]
      rw [Option.map_some, ← inv_div, Complex.arg_inv]
    · rw [List.getElem?_eq_none (by omega), List.getElem?_eq_none (by rw [List.length_map]; omega)]

/-- With smoothing (the default), records that have fewer than 29 samples at the common times cannot be compared: the
smoothing window of 15 points is longer than the spectrum. -/
theorem C127_short_violated (x y : Rec ℝ) (a b : Rec ℝ) (ha : alignRecs x y = .ok (a, b)) (hl : a.length < 29) (r : Comparison) :
    compareTwo true x y ≠ .ok r := by
  intro h
  obtain ⟨ha', _, _, _, _, _, _, _, _, _, h1⟩ := compareTwo_inv h
  rw [ha] at ha'
  have e := (Prod.mk.inj (Except.ok.inj ha')).1
  obtain ⟨_, la, _⟩ := C127_ratio _ _ _ r h
  obtain ⟨q, hq, _⟩ := h1 rfl
  have := (C65_log_rejects { linSpace := false } r.ampl).1 (by show r.ampl.length < 15; rw [la, ← e]; omega)
  rw [hq] at this
  cases this

/-- When a comparison succeeds: a time step other than 0, no vanishing coefficient of the aligned input and, with
smoothing, at least 29 samples. -/
theorem C127_succeeds (smooth : Bool) (x y a b : Rec ℝ) (d : ℝ) (ha : alignRecs x y = .ok (a, b)) (hd : dtOf a = .ok d)
    (h0 : d ≠ 0) (hc : ∀ k < (a.length + 1) / 2, coeff (a.map Prod.snd) k ≠ 0) (hs : smooth = true → 29 ≤ a.length) :
    ∃ r, compareTwo smooth x y = .ok r := by
  obtain ⟨hl, ht⟩ := alignRecs_len ha
  have hdb : dtOf b = .ok d := by
    match a, b, hl, ht, hd with
    | p :: q :: a, p' :: q' :: b, _, ht, hd =>
      have ht : p.1 :: q.1 :: _ = p'.1 :: q'.1 :: _ := ht
      have hd : Except.ok (q.1 - p.1) = (.ok d : Except PyErr ℝ) := hd
      rw [← hd]
      show Except.ok (q'.1 - p'.1) = _
      rw [List.cons.injEq, List.cons.injEq] at ht
      rw [ht.1, ht.2.1]
  obtain ⟨si, hsi⟩ := C105_succeeds false false a d hd h0
  obtain ⟨so, hso⟩ := C105_succeeds false false b d hdb h0
  obtain ⟨_, _, _, l1, r1⟩ := C105_values_partial _ _ _ si hsi
  obtain ⟨_, _, _, l2, r2⟩ := C105_values_partial _ _ _ so hso
  simp only [Bool.false_eq_true, if_false] at l1 l2 r1 r2
  have hnz : ¬ ∃ p ∈ si, p.2 = 0 := by
    rintro ⟨p, hp, hz⟩
    obtain ⟨k, hk⟩ := List.mem_iff_getElem?.1 hp
    have hkl : k < si.length := (List.getElem?_eq_some_iff.1 hk).1
    rw [r1 k hkl] at hk
    rw [← Option.some.inj hk] at hz
    exact hc k (by omega) hz
  unfold compareTwo
  simp only [ha, bind, Except.bind, hsi, hso]
  rw [if_neg hnz]
  cases smooth with
  | false => exact ⟨_, rfl⟩
  | true =>
    have h29 := hs rfl
    simp only [if_true]
    set amp := (List.zipWith (fun (o i : ℝ × ℂ) => o.2 / i.2) so si).map fun z => ‖z‖ with hamp
    have lamp : 15 ≤ amp.length := by rw [hamp, List.length_map, List.length_zipWith, l1, l2, ← hl]; omega
    obtain ⟨y, hy⟩ := (C65_lin_accepts amp 15 .hanning).1 ⟨lamp, .inr (by decide)⟩
    have : ∃ q, logSmooth { linSpace := false } amp = .ok q := by
      unfold logSmooth
      rw [if_neg (by show ¬ amp.length < 15; omega), if_neg (by decide), if_neg (by decide)]
      simp only [toLog, Bool.false_eq_true, if_false, bind, Except.bind, hy, if_true]
      rw [if_neg (by norm_num), if_neg (by norm_num)]
      exact ⟨_, rfl⟩
    obtain ⟨q, hq⟩ := this
    rw [hq]
    exact ⟨_, rfl⟩

-- a pulse at times 1 and 2 compared with three times itself: amplification 3, phase 0
theorem compare_pulse : ∃ r, compareTwo false [(1, 1), (2, 0)] [(1, 3), (2, 0)] = .ok r ∧ r.ampl = [3] ∧ r.phase = [0] := by
  have e : alignRecs ([(1, 1), (2, 0)] : Rec ℝ) [(1, 3), (2, 0)] = .ok ([(1, 1), (2, 0)], [(1, 3), (2, 0)]) := by
    have ht : alignTimes (([(1, 1), (2, 0)] : Rec ℝ).map Prod.fst) (([(1, 3), (2, 0)] : Rec ℝ).map Prod.fst) = .ok [1, 2] := by
      unfold alignTimes
      have : ⌈(2 : ℝ)⌉ = 2 := by exact_mod_cast Int.ceil_intCast (R := ℝ) 2
      norm_num [this, linspace]
      rw [show (2 : Int).toNat = 2 from rfl, List.range_succ, List.range_succ]
      norm_num
    rw [alignRecs_eq, ht]
    norm_num [Except.map, interpFrom]
  obtain ⟨r, hr⟩ := C127_succeeds false [(1, 1), (2, 0)] [(1, 3), (2, 0)] _ _ 1 e (by norm_num [dtOf]) one_ne_zero (by
    intro k hk
    have : k = 0 := by simp at hk; omega
    subst this
    simp [coeff, Finset.sum_range_succ]) (by simp)
  refine ⟨r, hr, ?_⟩
  obtain ⟨ha, _⟩ := compareTwo_inv hr
  rw [e] at ha
  obtain ⟨e1, e2⟩ := Prod.mk.inj (Except.ok.inj ha)
  obtain ⟨_, la, lp, _⟩ := C127_ratio _ _ _ r hr
  rw [← e1] at la
  have hm := C127_multiple false [(1, 1), (2, 0)] 3 r (by simpa using hr)
  have la : r.ampl.length = 1 := la
  rw [la] at lp
  obtain ⟨u, hu⟩ := List.length_eq_one_iff.1 la
  obtain ⟨v, hv⟩ := List.length_eq_one_iff.1 lp
  rw [hu, hv] at hm
  have h1 := hm.1 u (by simp)
  have h2 := hm.2.1 v (by simp)
  rw [hu, hv, h1, h2]
  refine ⟨by norm_num, ?_⟩
  have : Complex.arg ((3 : ℝ) : ℂ) = 0 := Complex.arg_ofReal_of_nonneg (by norm_num)
  rw [this]

end

-- time steps of 1 and 1/2, ends at 2 and 3/2
example : alignRecs ([(0, 7), (1, 4), (2, 6)] : Rec ℚ) [(1 / 2, 1), (1, 3), (3 / 2, 5)]
    = .ok ([(1 / 2, 11 / 2), (1, 4), (3 / 2, 5), (2, 6)], [(1 / 2, 1), (1, 3), (3 / 2, 5), (2, 5)]) := by decide +kernel

-- the first sample is lost
example : alignRecs ([(0, 7), (1, 4), (2, 6)] : Rec ℚ) [(0, 1), (1, 3), (2, 5)] = .ok ([(1, 4), (2, 6)], [(1, 3), (2, 5)]) := by
  decide +kernel

end Verif
