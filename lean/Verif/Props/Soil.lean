import Verif.Model.Soil
import Mathlib.Tactic.Linarith
import Mathlib.Tactic.FieldSimp
import Mathlib.Tactic.Ring
import Mathlib.Tactic.NormNum
import Mathlib.Tactic.Positivity
import Mathlib.Tactic.GCongr

/-!
Properties C40–C44: damping and modulus reduction from stress-strain curves; the MKZ, FKZ
and HH soil models.
-/

set_option linter.unusedSectionVars false
set_option linter.unusedVariables false

namespace Verif

section Curves
variable {K : Type} [Field K] [LinearOrder K] [IsStrictOrderedRing K]

/-! ## C41 -/

/-- Whenever values are returned, there is one per point and its product with `Gmax` and the
strain is the stress; with the default `Gmax` the first value is 1. -/
theorem C41_product (strain stress gg : List K) (gmax : Option K) (h : calcGGmax strain stress gmax = .ok gg) :
    gg.length = strain.length ∧ stress.length = strain.length ∧
    ∃ g, (∀ g', gmax = some g' → g = g') ∧
      (∀ (i : Nat) (e s x : K), strain[i]? = some e → stress[i]? = some s → gg[i]? = some x → x * g * e = s) ∧
      (gmax = none → gg[0]? = some 1) := by
  unfold calcGGmax at h
  cases strain with
  | nil => cases h
  | cons e0 es =>
    simp only at h
    by_cases he : e0 = 0
    · rw [if_pos he] at h; cases h
    rw [if_neg he] at h
    split at h
    · cases h
    · rename_i g hg
      by_cases hl : (e0 :: es).length ≠ stress.length
      · rw [if_pos hl] at h; cases h
      rw [if_neg hl] at h
      push Not at hl
      by_cases hz : 0 ∈ es ∨ g = 0
      · rw [if_pos hz] at h; cases h
      rw [if_neg hz] at h
      push Not at hz
      cases h
      refine ⟨by simp at hl ⊢; omega, hl.symm, g, ?_, ?_, ?_⟩
      · rintro g' rfl
        simp only [Except.ok.injEq] at hg
        exact hg.symm
      · intro i e s x h1 h2 h3
        rw [List.getElem?_zipWith, h1, h2] at h3
        simp only [Option.some.injEq] at h3
        subst h3
        have hne : e ≠ 0 := by
          have := List.mem_of_getElem? h1
          rcases List.mem_cons.1 this with rfl | h
          · exact he
          · rintro rfl; exact hz.1 h
        have := hz.2
        field_simp
      · rintro rfl
        cases stress with
        | nil => simp at hl
        | cons s0 ss =>
          simp only [Except.ok.injEq] at hg
          subst hg
          have hs : s0 ≠ 0 := by
            rintro rfl
            exact hz.2 (by simp)
          simp only [List.zipWith_cons_cons, List.getElem?_cons_zero, Option.some.injEq]
          field_simp

/-- The rejected inputs. -/
theorem C41_rejects (es stress : List K) (gmax : Option K) :
    calcGGmax (0 :: es) stress gmax = .error .valueError ∧ calcGGmax [] stress gmax = .error .indexError := by
  constructor
  · simp [calcGGmax]
  · rfl

/-- Curves with positive strains and a positive `Gmax` are accepted. -/
theorem C41_accepts (strain stress : List K) (g : K) (hne : strain ≠ []) (hl : strain.length = stress.length)
    (hpos : ∀ e ∈ strain, 0 < e) (hg : 0 < g) : ∃ gg, calcGGmax strain stress (some g) = .ok gg := by
  unfold calcGGmax
  cases strain with
  | nil => exact absurd rfl hne
  | cons e0 es =>
    simp only
    rw [if_neg (hpos e0 (by simp)).ne', if_neg (by simpa using hl), if_neg]
    · exact ⟨_, rfl⟩
    · rintro (h | h)
      · exact absurd (hpos 0 (by simp [h])) (lt_irrefl _)
      · exact hg.ne' h

example : calcGGmax ([1, 2, 4] : List ℚ) [10, 18, 30] none = .ok [1, 9 / 10, 3 / 4] := by decide +kernel

/-! ## C40 -/

/-- Twice the area under the polyline through the points so far. -/
def Spec.twiceArea (area2 : K) (prev : K × K) : List (K × K) → List K
  | [] => []
  | p :: rest =>
    let a := area2 + (prev.2 + p.2) * (p.1 - prev.1)
    a :: Spec.twiceArea a p rest

/-- The hysteretic damping of a backbone curve: `2/π (2 A/(τ γ) - 1)` with `A` the area under
the polyline from the origin, cut off at 0. -/
def Spec.hysteretic (pi : K) (pts : List (K × K)) : List K :=
  List.zipWith (fun a p => max (2 / pi * (a / (p.2 * p.1) - 1)) 0) (Spec.twiceArea 0 (0, 0) pts) pts

theorem dampLoop_eq (pi g : K) (hg : g ≠ 0) (area : K) (prev : K × K) (pts : List (K × K))
    (hpos : ∀ p ∈ pts, p.1 ≠ 0 ∧ p.2 ≠ 0) (hprev : prev.1 ≠ 0) :
    dampLoop pi area (prev.1, prev.2 / prev.1 / g) (pts.map fun p => (p.1, p.2 / p.1 / g)) =
      List.zipWith (fun a p => 2 / pi * (a / (p.2 * p.1) - 1)) (Spec.twiceArea (2 * area * g) prev pts) pts := by
  induction pts generalizing area prev with
  | nil => rfl
  | cons p pts ih =>
    obtain ⟨hp1, hp2⟩ := hpos p (by simp)
    simp only [List.map_cons, dampLoop, Spec.twiceArea, List.zipWith_cons_cons]
    have ha : 2 * (area + 1 / 2 * (prev.1 * (prev.2 / prev.1 / g) + p.1 * (p.2 / p.1 / g)) * (p.1 - prev.1)) * g =
        2 * area * g + (prev.2 + p.2) * (p.1 - prev.1) := by
      field_simp
    congr 1
    · congr 1
      rw [← ha]
      field_simp
    · rw [ih _ p (fun q hq => hpos q (by simp [hq])) hp1, ha]

/-- What is computed: the hysteretic damping of the stress-strain points.  All points must
have non-zero strain and stress. -/
theorem C40_value (pi g : K) (pts : List (K × K)) (hne : pts ≠ []) (hg : g ≠ 0)
    (hpos : ∀ p ∈ pts, p.1 ≠ 0 ∧ p.2 ≠ 0) :
    calcDamping pi (pts.map Prod.fst) (pts.map Prod.snd) g = .ok (Spec.hysteretic pi pts) := by
  match pts, hne with
  | p :: pts, _ =>
    obtain ⟨hp1, hp2⟩ := hpos p (by simp)
    have hgg : calcGGmax ((p :: pts).map Prod.fst) ((p :: pts).map Prod.snd) (some g) =
        .ok ((p :: pts).map fun p => p.2 / p.1 / g) := by
      unfold calcGGmax
      simp only [List.map_cons]
      rw [if_neg hp1, if_neg (by simp), if_neg]
      · congr 1
        rw [← List.map_cons, ← List.map_cons (f := Prod.fst), List.zipWith_map, List.zipWith_self]
        rfl
      · rintro (h | h)
        · rw [List.mem_map] at h
          obtain ⟨q, hq, h0⟩ := h
          exact (hpos q (by simp [hq])).1 h0
        · exact hg h
    unfold calcDamping
    rw [hgg]
    simp only
    rw [if_neg]
    · have hz : ((p :: pts).map Prod.fst).zip ((p :: pts).map fun p => p.2 / p.1 / g) =
          (p :: pts).map fun p => (p.1, p.2 / p.1 / g) := by
        rw [List.zip_map']
      rw [hz]
      simp only [List.map_cons, Spec.hysteretic, Spec.twiceArea, List.zipWith_cons_cons]
      have hd := dampLoop_eq pi g hg (1 / 2 * (p.1 * (p.2 / p.1 / g)) * p.1) p pts (fun q hq => hpos q (by simp [hq])) hp1
      have h0 : 2 * (1 / 2 * (p.1 * (p.2 / p.1 / g)) * p.1) * g = 0 + (0 + p.2) * (p.1 - 0) := by
        field_simp; ring
      rw [hd, h0]
      congr 2
      · congr 2
        rw [← h0]
        field_simp
      · rw [List.map_zipWith]
    · intro h
      rw [List.mem_map] at h
      obtain ⟨q, hq, h0⟩ := h
      obtain ⟨h1, h2⟩ := hpos q hq
      exact (div_ne_zero (div_ne_zero h2 h1) hg) h0

/-- Never negative, whatever the input. -/
theorem C40_nonneg (pi g : K) (strain stress d : List K) (h : calcDamping pi strain stress g = .ok d) :
    ∀ x ∈ d, 0 ≤ x := by
  intro x hx
  unfold calcDamping at h
  split at h
  · cases h
  · split_ifs at h
    split at h
    · cases h
    · cases h
      rw [List.mem_map] at hx
      obtain ⟨y, _, rfl⟩ := hx
      exact le_max_right _ _

/-- Zero at the first strain. -/
theorem C40_first (pi g : K) (pts : List (K × K)) (d : List K) (hne : pts ≠ []) (hg : g ≠ 0)
    (hpos : ∀ p ∈ pts, p.1 ≠ 0 ∧ p.2 ≠ 0)
    (h : calcDamping pi (pts.map Prod.fst) (pts.map Prod.snd) g = .ok d) : d[0]? = some 0 := by
  rw [C40_value pi g pts hne hg hpos] at h
  cases h
  match pts, hne with
  | p :: pts, _ =>
    obtain ⟨hp1, hp2⟩ := hpos p (by simp)
    simp only [Spec.hysteretic, Spec.twiceArea, List.zipWith_cons_cons, List.getElem?_cons_zero, Option.some.injEq,
      zero_add, sub_zero]
    rw [div_self (mul_ne_zero hp2 hp1)]
    simp

theorem twiceArea_linear (c : K) (prev : K) (es : List K) :
    Spec.twiceArea (c * prev ^ 2) (prev, c * prev) (es.map fun e => (e, c * e)) = es.map fun e => c * e ^ 2 := by
  induction es generalizing prev with
  | nil => rfl
  | cons e es ih =>
    simp only [List.map_cons, Spec.twiceArea]
    have : c * prev ^ 2 + (c * prev + c * e) * (e - prev) = c * e ^ 2 := by ring
    rw [this, ih]

/-- Linear material has no damping. -/
theorem C40_linear (pi g c : K) (es : List K) (hne : es ≠ []) (hg : g ≠ 0) (hc : c ≠ 0) (hpos : ∀ e ∈ es, e ≠ 0) :
    calcDamping pi es (es.map fun e => c * e) g = .ok (es.map fun _ => 0) := by
  have h := C40_value pi g (es.map fun e => (e, c * e)) (by simpa using hne) hg (by
    intro p hp
    rw [List.mem_map] at hp
    obtain ⟨e, he, rfl⟩ := hp
    exact ⟨hpos e he, mul_ne_zero hc (hpos e he)⟩)
  simp only [List.map_map] at h
  have e1 : es.map (Prod.fst ∘ fun e => (e, c * e)) = es := by
    simp [Function.comp_def]
  have e2 : es.map (Prod.snd ∘ fun e => (e, c * e)) = es.map fun e => c * e := rfl
  rw [e1, e2] at h
  rw [h]
  congr 1
  unfold Spec.hysteretic
  have := twiceArea_linear c 0 es
  simp only [ne_eq, OfNat.ofNat_ne_zero, not_false_eq_true, zero_pow, mul_zero] at this
  rw [this, List.zipWith_map, List.zipWith_self]
  apply List.map_congr_left
  intro e he
  have he' := hpos e he
  have : c * e ^ 2 / (c * e * e) = 1 := by field_simp
  simp [this]

theorem twiceArea_scale (k area : K) (prev : K × K) (pts : List (K × K)) :
    Spec.twiceArea (k * area) (prev.1, k * prev.2) (pts.map fun p => (p.1, k * p.2)) =
      (Spec.twiceArea area prev pts).map fun a => k * a := by
  induction pts generalizing area prev with
  | nil => rfl
  | cons p pts ih =>
    simp only [List.map_cons, Spec.twiceArea]
    have : k * area + (k * prev.2 + k * p.2) * (p.1 - prev.1) = k * (area + (prev.2 + p.2) * (p.1 - prev.1)) := by ring
    rw [this, ih]

/-- Scaling all stresses, with or without `Gmax`, does not change the damping. -/
theorem C40_scale (pi g g' k : K) (pts : List (K × K)) (hne : pts ≠ []) (hg : g ≠ 0) (hg' : g' ≠ 0) (hk : k ≠ 0)
    (hpos : ∀ p ∈ pts, p.1 ≠ 0 ∧ p.2 ≠ 0) :
    calcDamping pi (pts.map Prod.fst) (pts.map fun p => k * p.2) g' =
      calcDamping pi (pts.map Prod.fst) (pts.map Prod.snd) g := by
  have h := C40_value pi g' (pts.map fun p => (p.1, k * p.2)) (by simpa using hne) hg' (by
    intro p hp
    rw [List.mem_map] at hp
    obtain ⟨e, he, rfl⟩ := hp
    exact ⟨(hpos e he).1, mul_ne_zero hk (hpos e he).2⟩)
  simp only [List.map_map] at h
  have e1 : pts.map (Prod.fst ∘ fun p => (p.1, k * p.2)) = pts.map Prod.fst := rfl
  have e2 : pts.map (Prod.snd ∘ fun p => (p.1, k * p.2)) = pts.map fun p => k * p.2 := rfl
  rw [e1, e2] at h
  rw [h, C40_value pi g pts hne hg hpos]
  congr 1
  unfold Spec.hysteretic
  have := twiceArea_scale k 0 ((0, 0) : K × K) pts
  simp only [mul_zero] at this
  rw [this, List.zipWith_map]
  have hl : ∀ (a : List K) (pts : List (K × K)), (∀ p ∈ pts, p.1 ≠ 0 ∧ p.2 ≠ 0) →
      List.zipWith (fun x (y : K × K) => max (2 / pi * (k * x / (k * y.2 * y.1) - 1)) 0) a pts =
        List.zipWith (fun x (y : K × K) => max (2 / pi * (x / (y.2 * y.1) - 1)) 0) a pts := by
    intro a
    induction a with
    | nil => intro pts _; simp
    | cons x a ih =>
      intro pts hp
      cases pts with
      | nil => simp
      | cons y pts =>
        rw [List.zipWith_cons_cons, List.zipWith_cons_cons, ih pts (fun q hq => hp q (by simp [hq]))]
        congr 3
        obtain ⟨h1, h2⟩ := hp y (by simp)
        field_simp
  exact hl _ pts hpos

/-- Points of increasing strain and non-decreasing stress after `(e, s)`. -/
def Spec.Backbone (e s : K) : List (K × K) → Prop
  | [] => True
  | p :: rest => e < p.1 ∧ s ≤ p.2 ∧ Spec.Backbone p.1 p.2 rest

theorem twiceArea_le (area : K) (prev : K × K) (pts : List (K × K)) (h0 : 0 ≤ prev.1)
    (harea : area ≤ 2 * (prev.2 * prev.1)) (hb : Spec.Backbone prev.1 prev.2 pts) :
    ∀ (i : Nat) a p, (Spec.twiceArea area prev pts)[i]? = some a → pts[i]? = some p → a ≤ 2 * (p.2 * p.1) ∧ prev.1 < p.1 ∧ prev.2 ≤ p.2 := by
  induction pts generalizing area prev with
  | nil => intro i a p h; simp [Spec.twiceArea] at h
  | cons q pts ih =>
    obtain ⟨h1, h2, h3⟩ := hb
    intro i a p ha hp
    have hq : area + (prev.2 + q.2) * (q.1 - prev.1) ≤ 2 * (q.2 * q.1) := by nlinarith
    cases i with
    | zero =>
      simp only [Spec.twiceArea, List.getElem?_cons_zero, Option.some.injEq] at ha hp
      subst ha hp
      exact ⟨hq, h1, h2⟩
    | succ i =>
      simp only [Spec.twiceArea, List.getElem?_cons_succ] at ha hp
      obtain ⟨h4, h5, h6⟩ := ih _ q (by linarith) hq h3 i a p ha hp
      exact ⟨h4, by linarith, by linarith⟩

/-- At most `2/π` for positive strains that increase and positive stresses that do not
decrease. -/
theorem C40_bound (pi g : K) (hpi : 0 < pi) (p : K × K) (pts : List (K × K)) (d : List K) (hg : g ≠ 0)
    (hp1 : 0 < p.1) (hp2 : 0 < p.2) (hb : Spec.Backbone p.1 p.2 pts)
    (h : calcDamping pi ((p :: pts).map Prod.fst) ((p :: pts).map Prod.snd) g = .ok d) : ∀ x ∈ d, x ≤ 2 / pi := by
  have hbb : Spec.Backbone 0 0 (p :: pts) := ⟨hp1, hp2.le, hb⟩
  have hpos : ∀ (pts : List (K × K)) (e s : K), 0 ≤ e → 0 < s → Spec.Backbone e s pts → ∀ q ∈ pts, q.1 ≠ 0 ∧ q.2 ≠ 0 := by
    intro pts
    induction pts with
    | nil => intro e s _ _ _ q hq; cases hq
    | cons r pts ih =>
      intro e s he hs hb q hq
      obtain ⟨h1, h2, h3⟩ := hb
      rcases List.mem_cons.1 hq with rfl | hq
      · exact ⟨(lt_of_le_of_lt he h1).ne', (lt_of_lt_of_le hs h2).ne'⟩
      · exact ih r.1 r.2 (le_of_lt (lt_of_le_of_lt he h1)) (lt_of_lt_of_le hs h2) h3 q hq
  have hall : ∀ q ∈ p :: pts, q.1 ≠ 0 ∧ q.2 ≠ 0 := by
    intro q hq
    rcases List.mem_cons.1 hq with rfl | hq
    · exact ⟨hp1.ne', hp2.ne'⟩
    · exact hpos pts p.1 p.2 hp1.le hp2 hb q hq
  rw [C40_value pi g (p :: pts) (by simp) hg hall] at h
  cases h
  intro x hx
  obtain ⟨i, hi⟩ := List.mem_iff_getElem?.1 hx
  unfold Spec.hysteretic at hi
  rw [List.getElem?_zipWith] at hi
  cases ha : (Spec.twiceArea 0 (0, 0) (p :: pts))[i]? with
  | none => rw [ha] at hi; simp at hi
  | some a =>
    cases hq : (p :: pts)[i]? with
    | none => rw [ha, hq] at hi; simp at hi
    | some q =>
      rw [ha, hq] at hi
      simp only [Option.some.injEq] at hi
      subst hi
      obtain ⟨h1, h2, h3⟩ := twiceArea_le 0 ((0, 0) : K × K) (p :: pts) le_rfl (by simp) hbb i a q ha hq
      have hq2 : 0 < q.2 := lt_of_le_of_ne h3 (Ne.symm (hall q (List.mem_of_getElem? hq)).2)
      have hq1 : 0 < q.1 := h2
      apply max_le
      · have : a / (q.2 * q.1) ≤ 2 := by
          rw [div_le_iff₀ (mul_pos hq2 hq1)]; exact h1
        have h2pi : 0 < 2 / pi := by positivity
        calc 2 / pi * (a / (q.2 * q.1) - 1) ≤ 2 / pi * 1 := by
              apply mul_le_mul_of_nonneg_left _ h2pi.le; linarith
          _ = 2 / pi := mul_one _
      · positivity

example : Spec.Backbone (1 : ℚ) 10 [(2, 15), (4, 20)] := by
  simp only [Spec.Backbone]; norm_num

example : calcDamping (3 : ℚ) [1, 2, 4] [10, 15, 20] 10 = .ok [0, 1 / 9, 5 / 24] := by decide +kernel

end Curves

/-! ## C42 -/

section MKZ
variable {gr beta s G : ℝ}

theorem mkz_den_pos (hgr : 0 < gr) (hb : 0 < beta) (g : ℝ) : 1 ≤ 1 + beta * (|g| / gr) ^ s := by
  have : 0 ≤ (|g| / gr) ^ s := Real.rpow_nonneg (by positivity) _
  nlinarith

/-- Odd in strain. -/
theorem C42_odd (gr beta s G g : ℝ) : tauMKZ gr beta s G (-g) = -tauMKZ gr beta s G g := by
  unfold tauMKZ
  rw [abs_neg]
  ring

/-- `G/Gmax` lies in (0, 1] and does not increase with the strain magnitude; the secant slope
is at most `Gmax`. -/
theorem C42_modulus (hgr : 0 < gr) (hb : 0 < beta) (hs : 0 < s) (hG : 0 < G) (x y : ℝ) (hx : x ≠ 0) (hxy : |x| ≤ |y|) :
    0 < tauMKZ gr beta s G y / (G * y) ∧ tauMKZ gr beta s G y / (G * y) ≤ tauMKZ gr beta s G x / (G * x) ∧
      tauMKZ gr beta s G x / (G * x) ≤ 1 ∧ |tauMKZ gr beta s G x| ≤ G * |x| := by
  have hy : y ≠ 0 := by
    rintro rfl
    rw [abs_zero] at hxy
    exact hx (abs_eq_zero.1 (le_antisymm hxy (abs_nonneg _)))
  have key : ∀ z : ℝ, z ≠ 0 → tauMKZ gr beta s G z / (G * z) = 1 / (1 + beta * (|z| / gr) ^ s) := by
    intro z hz
    unfold tauMKZ
    have := mkz_den_pos (s := s) hgr hb z
    have h1 : (1 + beta * (|z| / gr) ^ s) ≠ 0 := by linarith
    field_simp
  have h1 := mkz_den_pos (s := s) hgr hb x
  have h2 := mkz_den_pos (s := s) hgr hb y
  rw [key x hx, key y hy]
  refine ⟨by positivity, ?_, ?_, ?_⟩
  · apply one_div_le_one_div_of_le (by linarith)
    have : (|x| / gr) ^ s ≤ (|y| / gr) ^ s := by
      apply Real.rpow_le_rpow (by positivity) _ hs.le
      gcongr
    nlinarith
  · rw [div_le_one (by linarith)]; exact h1
  · unfold tauMKZ
    rw [abs_div, abs_mul, abs_of_pos hG, abs_of_pos (by linarith : (0 : ℝ) < 1 + beta * (|x| / gr) ^ s)]
    exact div_le_self (by positivity) h1

/-- Strictly decreasing modulus for strictly larger strain. -/
theorem C42_strict (hgr : 0 < gr) (hb : 0 < beta) (hs : 0 < s) (hG : 0 < G) (x y : ℝ) (hx : x ≠ 0) (hxy : |x| < |y|) :
    tauMKZ gr beta s G y / (G * y) < tauMKZ gr beta s G x / (G * x) := by
  have hy : y ≠ 0 := by
    rintro rfl
    rw [abs_zero] at hxy
    exact absurd (abs_nonneg x) (not_le.2 hxy)
  have key : ∀ z : ℝ, z ≠ 0 → tauMKZ gr beta s G z / (G * z) = 1 / (1 + beta * (|z| / gr) ^ s) := by
    intro z hz
    unfold tauMKZ
    have := mkz_den_pos (s := s) hgr hb z
    have h1 : (1 + beta * (|z| / gr) ^ s) ≠ 0 := by linarith
    field_simp
  rw [key x hx, key y hy]
  have h1 := mkz_den_pos (s := s) hgr hb x
  apply one_div_lt_one_div_of_lt (by linarith)
  have : (|x| / gr) ^ s < (|y| / gr) ^ s := by
    apply Real.rpow_lt_rpow (by positivity) _ hs
    gcongr
  nlinarith

/-- Half of the elastic stress at the reference strain for `beta = 1`. -/
theorem C42_reference (hgr : 0 < gr) : tauMKZ gr 1 s G gr = G * gr / 2 := by
  unfold tauMKZ
  rw [abs_of_pos hgr, div_self hgr.ne', Real.one_rpow]
  norm_num

/-- Stress does not decrease with strain for `s ≤ 1`. -/
theorem C42_monotone (hgr : 0 < gr) (hb : 0 < beta) (hs : 0 < s) (hs1 : s ≤ 1) (hG : 0 < G) (x y : ℝ) (hxy : x ≤ y) :
    tauMKZ gr beta s G x ≤ tauMKZ gr beta s G y := by
  have pos : ∀ x y : ℝ, 0 ≤ x → x ≤ y → tauMKZ gr beta s G x ≤ tauMKZ gr beta s G y := by
    intro x y hx hxy
    unfold tauMKZ
    rw [abs_of_nonneg hx, abs_of_nonneg (hx.trans hxy)]
    have h1 := mkz_den_pos (s := s) hgr hb x
    have h2 := mkz_den_pos (s := s) hgr hb y
    rw [abs_of_nonneg hx] at h1
    rw [abs_of_nonneg (hx.trans hxy)] at h2
    rw [div_le_div_iff₀ (by linarith) (by linarith)]
    rcases hx.eq_or_lt with rfl | hx0
    · have : 0 ≤ y := hxy
      simp only [mul_zero, zero_mul]
      positivity
    · have hy0 : 0 < y := lt_of_lt_of_le hx0 hxy
      have hk : x * (y / gr) ^ s ≤ y * (x / gr) ^ s := by
        have e : ∀ z : ℝ, 0 < z → (z / gr) ^ s = (z / gr) * (z / gr) ^ (s - 1) := by
          intro z hz
          rw [Real.rpow_sub_one (by positivity)]
          field_simp
        rw [e y hy0, e x hx0]
        have : (y / gr) ^ (s - 1) ≤ (x / gr) ^ (s - 1) := by
          apply Real.rpow_le_rpow_of_nonpos (by positivity) _ (by linarith)
          gcongr
        have hxy' : 0 ≤ x * (y / gr) := by positivity
        calc x * (y / gr * (y / gr) ^ (s - 1)) = x * (y / gr) * (y / gr) ^ (s - 1) := by ring
          _ ≤ x * (y / gr) * (x / gr) ^ (s - 1) := by gcongr
          _ = y * (x / gr * (x / gr) ^ (s - 1)) := by ring
      have : G * (beta * (x * (y / gr) ^ s)) ≤ G * (beta * (y * (x / gr) ^ s)) := by gcongr
      nlinarith
  rcases le_total 0 x with hx | hx
  · exact pos x y hx hxy
  · rcases le_total 0 y with hy | hy
    · have h1 := pos 0 y le_rfl hy
      have h2 := pos 0 (-x) le_rfl (by linarith)
      rw [C42_odd] at h2
      have h0 : tauMKZ gr beta s G 0 = 0 := by simp [tauMKZ]
      linarith
    · have := pos (-y) (-x) (by linarith) (by linarith)
      rw [C42_odd, C42_odd] at this
      linarith

/-- For `s > 1` the stress eventually decreases, so the bound on `s` is needed. -/
theorem C42_monotone_needs_s : tauMKZ 1 1 2 1 2 < tauMKZ 1 1 2 1 1 := by
  unfold tauMKZ
  rw [abs_of_pos (by norm_num : (0 : ℝ) < 2), abs_one, div_one, div_one, Real.one_rpow]
  have : (2 : ℝ) ^ (2 : ℝ) = 4 := by
    rw [show (2 : ℝ) = ((2 : ℕ) : ℝ) by norm_num, Real.rpow_natCast]; norm_num
  rw [this]; norm_num

end MKZ

/-! ## C43 -/

/-- For positive strains the FKZ stress is positive, below the strength and strictly
increasing. -/
theorem C43_strength (Gmax mu d Tmax x y : ℝ) (hG : 0 < Gmax) (hmu : 0 < mu) (hd : 0 < d) (hT : 0 < Tmax) (hx : 0 < x)
    (hxy : x < y) :
    0 < tauFKZ Gmax mu d Tmax x ∧ tauFKZ Gmax mu d Tmax x < tauFKZ Gmax mu d Tmax y ∧ tauFKZ Gmax mu d Tmax y < Tmax := by
  have hy := hx.trans hxy
  unfold tauFKZ
  rw [abs_of_pos hx, abs_of_pos hy]
  have hX : 0 < x ^ d := Real.rpow_pos_of_pos hx d
  have hY : 0 < y ^ d := Real.rpow_pos_of_pos hy d
  have hXY : x ^ d < y ^ d := Real.rpow_lt_rpow hx.le hxy hd
  refine ⟨by positivity, ?_, ?_⟩
  · rw [div_lt_div_iff₀ (by positivity) (by positivity)]
    have : mu * Gmax * x ^ d < mu * Gmax * y ^ d := by gcongr
    nlinarith
  · rw [div_lt_iff₀ (by positivity)]
    have : Tmax * (1 + Gmax / Tmax * mu * y ^ d) = Tmax + mu * Gmax * y ^ d := by field_simp
    linarith

/-- The stress at zero strain is zero. -/
theorem C43_zero (Gmax mu d Tmax : ℝ) (hd : 0 < d) : tauFKZ Gmax mu d Tmax 0 = 0 := by
  unfold tauFKZ
  rw [Real.zero_rpow hd.ne']; simp

/-- The strength is approached: every level below it is exceeded at some strain. -/
theorem C43_sharp (Gmax mu d Tmax c : ℝ) (hG : 0 < Gmax) (hmu : 0 < mu) (hd : 0 < d) (hT : 0 < Tmax) (hc : c < Tmax) :
    ∃ x, 0 < x ∧ c < tauFKZ Gmax mu d Tmax x := by
  by_cases hc0 : c ≤ 0
  · refine ⟨1, one_pos, lt_of_le_of_lt hc0 ?_⟩
    unfold tauFKZ
    rw [abs_one, Real.one_rpow]; positivity
  push Not at hc0
  set q : ℝ := 2 * (c / (mu * Gmax * (1 - c / Tmax))) with hq
  have h1 : 0 < 1 - c / Tmax := by rw [sub_pos, div_lt_one hT]; exact hc
  have hqpos : 0 < q := by positivity
  refine ⟨q ^ (1 / d), Real.rpow_pos_of_pos hqpos _, ?_⟩
  unfold tauFKZ
  rw [abs_of_pos (Real.rpow_pos_of_pos hqpos _), ← Real.rpow_mul hqpos.le, one_div, inv_mul_cancel₀ hd.ne', Real.rpow_one]
  rw [lt_div_iff₀ (by positivity)]
  have h2 : c * (1 + Gmax / Tmax * mu * q) = c + mu * Gmax * (c / Tmax) * q := by field_simp
  have h3 : mu * Gmax * (1 - c / Tmax) * q = 2 * c := by
    rw [hq]
    have h4 : 1 - c / Tmax ≠ 0 := h1.ne'
    generalize 1 - c / Tmax = w at h4
    field_simp
  rw [h2]; nlinarith

/-! ## C44 -/

theorem mid_bounds (y : ℝ) : 0 < 1 - 1 / (1 + (10 : ℝ) ^ y) ∧ 1 - 1 / (1 + (10 : ℝ) ^ y) < 1 := by
  have h : (0 : ℝ) < (10 : ℝ) ^ y := Real.rpow_pos_of_pos (by norm_num) y
  constructor
  · rw [sub_pos, div_lt_one (by linarith)]; linarith
  · have : 0 < 1 / (1 + (10 : ℝ) ^ y) := by positivity
    linarith

/-- The weight lies in [0, 1]. -/
theorem C44_weight_range (a gt g : ℝ) : 0 ≤ transOne a gt g ∧ transOne a gt g ≤ 1 := by
  unfold transOne
  have := mid_bounds (-a * transIv a gt g)
  split_ifs
  · exact ⟨zero_le_one, le_rfl⟩
  · exact ⟨zero_le_one, le_rfl⟩
  · exact ⟨le_rfl, zero_le_one⟩
  · exact ⟨this.1.le, this.2.le⟩

/-- The weight does not increase with the strain magnitude. -/
theorem C44_weight_antitone (a gt x y : ℝ) (ha : 0 < a) (hgt : 0 < gt) (hxy : |x| ≤ |y|) :
    transOne a gt y ≤ transOne a gt x := by
  by_cases hx : x = 0
  · rw [hx]
    conv_rhs => unfold transOne
    rw [if_pos rfl]
    exact (C44_weight_range a gt y).2
  have hxp : 0 < |x| := abs_pos.2 hx
  have hyp : 0 < |y| := lt_of_lt_of_le hxp hxy
  have hy : y ≠ 0 := abs_pos.1 hyp
  have hiv : transIv a gt x ≤ transIv a gt y := by
    unfold transIv
    have : Real.logb 10 (|x| / gt) ≤ Real.logb 10 (|y| / gt) := by
      apply Real.logb_le_logb_of_le (by norm_num) (by positivity)
      gcongr
    linarith
  have hE : -a * transIv a gt y ≤ -a * transIv a gt x := by nlinarith
  unfold transOne
  rw [if_neg hx, if_neg hy]
  generalize -a * transIv a gt x = u at hE ⊢
  generalize -a * transIv a gt y = v at hE ⊢
  have hu := mid_bounds u
  have hv := mid_bounds v
  split_ifs
  · exact le_rfl
  · linarith
  · linarith
  · exact zero_le_one
  · exact le_rfl
  · exact hu.1.le
  · exact hv.2.le
  · linarith
  · have h10 : (10 : ℝ) ^ v ≤ (10 : ℝ) ^ u := Real.rpow_le_rpow_of_exponent_le (by norm_num) hE
    have hp : (0 : ℝ) < (10 : ℝ) ^ v := Real.rpow_pos_of_pos (by norm_num) v
    have : 1 / (1 + (10 : ℝ) ^ u) ≤ 1 / (1 + (10 : ℝ) ^ v) := by
      apply one_div_le_one_div_of_le (by linarith); linarith
    linarith

/-- The HH stress lies between the MKZ and the FKZ stress at every strain, one value per
strain; a non-positive transition strain fails the assertion. -/
theorem C44_between (p : HHParam) (gamma : List ℝ) :
    (p.gammaT ≤ 0 → tauHH p gamma = .error .assertionError) ∧
    (0 < p.gammaT → ∃ t, tauHH p gamma = .ok t ∧ t.length = gamma.length ∧
      ∀ (i : Nat) g x, gamma[i]? = some g → t[i]? = some x →
        min (tauMKZ p.gammaRef p.beta p.s p.Gmax g) (tauFKZ p.Gmax p.mu p.d p.Tmax g) ≤ x ∧
        x ≤ max (tauMKZ p.gammaRef p.beta p.s p.Gmax g) (tauFKZ p.Gmax p.mu p.d p.Tmax g)) := by
  constructor
  · intro h
    unfold tauHH transition
    rw [if_pos (not_lt.2 h)]
  · intro h
    refine ⟨gamma.map (hhOne p), ?_, by simp, ?_⟩
    · unfold tauHH transition
      rw [if_neg (not_not.2 h)]
    · intro i g x hg hx
      rw [List.getElem?_map, hg] at hx
      simp only [Option.map_some, Option.some.injEq] at hx
      subst hx
      obtain ⟨h0, h1⟩ := C44_weight_range p.a p.gammaT g
      unfold hhOne
      generalize transOne p.a p.gammaT g = w at h0 h1
      generalize tauMKZ p.gammaRef p.beta p.s p.Gmax g = m
      generalize tauFKZ p.Gmax p.mu p.d p.Tmax g = f
      constructor
      · have e1 : w * min m f ≤ w * m := mul_le_mul_of_nonneg_left (min_le_left _ _) h0
        have e2 : (1 - w) * min m f ≤ (1 - w) * f := mul_le_mul_of_nonneg_left (min_le_right _ _) (by linarith)
        nlinarith
      · have e1 : w * m ≤ w * max m f := mul_le_mul_of_nonneg_left (le_max_left _ _) h0
        have e2 : (1 - w) * f ≤ (1 - w) * max m f := mul_le_mul_of_nonneg_left (le_max_right _ _) (by linarith)
        nlinarith

/-- Consequently, for positive strains the HH stress is positive and below any common bound of
the two models. -/
theorem C44_positive (p : HHParam) (g : ℝ) (hg : 0 < g) (h1 : 0 < p.gammaRef) (h2 : 0 < p.beta) (h3 : 0 < p.Gmax)
    (h4 : 0 < p.mu) (h5 : 0 < p.Tmax) : 0 < hhOne p g := by
  have hm : 0 < tauMKZ p.gammaRef p.beta p.s p.Gmax g := by
    unfold tauMKZ
    have := mkz_den_pos (s := p.s) h1 h2 g
    apply div_pos (mul_pos h3 hg); linarith
  have hf : 0 < tauFKZ p.Gmax p.mu p.d p.Tmax g := by
    unfold tauFKZ
    rw [abs_of_pos hg]
    have := Real.rpow_pos_of_pos hg p.d
    positivity
  obtain ⟨h0, h1'⟩ := C44_weight_range p.a p.gammaT g
  unfold hhOne
  generalize transOne p.a p.gammaT g = w at h0 h1'
  rcases h0.eq_or_lt with rfl | h0
  · simpa using hf
  · have : 0 ≤ (1 - w) * tauFKZ p.Gmax p.mu p.d p.Tmax g := mul_nonneg (by linarith) hf.le
    have : 0 < w * tauMKZ p.gammaRef p.beta p.s p.Gmax g := mul_pos h0 hm
    linarith

/-- The weight is 1 at zero strain, so the stress there is that of MKZ, namely zero. -/
theorem C44_zero (p : HHParam) : hhOne p 0 = 0 := by
  unfold hhOne transOne tauMKZ
  simp

/-- The midpoint of the transition: weight 1/2 at the strain where the exponent vanishes. -/
theorem C44_midpoint (a gt : ℝ) (ha : 0 < a) (hgt : 0 < gt) :
    transOne a gt (gt * (10 : ℝ) ^ (4.039 * a ^ (-1.036 : ℝ))) = 1 / 2 := by
  have hp : 0 < (10 : ℝ) ^ (4.039 * a ^ (-1.036 : ℝ)) := Real.rpow_pos_of_pos (by norm_num) _
  have hiv : transIv a gt (gt * (10 : ℝ) ^ (4.039 * a ^ (-1.036 : ℝ))) = 0 := by
    unfold transIv
    rw [abs_of_pos (mul_pos hgt hp), mul_div_cancel_left₀ _ hgt.ne', Real.logb_rpow (by norm_num) (by norm_num), sub_self]
  unfold transOne
  rw [if_neg (mul_pos hgt hp).ne', hiv]
  norm_num

example : ∃ p : HHParam, 0 < p.gammaT ∧ 0 < p.gammaRef ∧ 0 < p.beta ∧ 0 < p.Gmax ∧ 0 < p.mu ∧ 0 < p.Tmax :=
  ⟨⟨1, 1, 1, 1, 1, 1, 1, 1, 1⟩, by norm_num, by norm_num, by norm_num, by norm_num, by norm_num, by norm_num⟩

end Verif
