import Verif.Props.ParamCurves
import Mathlib.MeasureTheory.Integral.IntervalIntegral.Basic
import Mathlib.Analysis.SpecialFunctions.Integrals.Basic
import Mathlib.Analysis.Convex.Deriv
import Mathlib.Analysis.SpecialFunctions.Pow.Deriv

/-!
C184: damping computed from a stress-strain curve that is sampled at some strains, compared with the damping of the curve itself.
-/

set_option linter.unusedSectionVars false
set_option linter.unusedVariables false

namespace Verif

namespace Spec

/-- The hysteretic (Masing) damping of the backbone curve `f` at the strain `γ`: `2/π (2 A/(τ γ) - 1)`, where `A` is the area under
the curve from 0 to `γ`. -/
noncomputable def masing (f : ℝ → ℝ) (γ : ℝ) : ℝ := 2 / Real.pi * (2 * (∫ x in (0 : ℝ)..γ, f x) / (f γ * γ) - 1)

/-- A backbone curve: it starts at the origin, does not decrease and is positive for positive strains. -/
structure IsBackbone (f : ℝ → ℝ) : Prop where
  zero : f 0 = 0
  mono : MonotoneOn f (Set.Ici 0)
  pos : ∀ x, 0 < x → 0 < f x

/-- The strains increase, from `p` on. -/
def Climbing (p : ℝ) : List ℝ → Prop
  | [] => True
  | e :: es => p < e ∧ Climbing e es

/-- The strains follow one another at distances of at most `h`. -/
def Dense (h p : ℝ) : List ℝ → Prop
  | [] => True
  | e :: es => e - p ≤ h ∧ Dense h e es

/-- No strain is larger than `q` times the strain before it, which for the first one is `p`. -/
def Ratio (q p : ℝ) : List ℝ → Prop
  | [] => True
  | e :: es => e ≤ q * p ∧ Ratio q e es

end Spec

open Spec (masing IsBackbone Climbing Dense Ratio MKZSet)

section
variable {f : ℝ → ℝ}

theorem backbone_int (hf : IsBackbone f) (a b : ℝ) (ha : 0 ≤ a) (hb : 0 ≤ b) :
    IntervalIntegrable f MeasureTheory.volume a b := by
  apply MonotoneOn.intervalIntegrable
  refine hf.mono.mono fun x hx => ?_
  rcases Set.mem_uIcc.1 hx with h | h
  · exact ha.trans h.1
  · exact hb.trans h.1

theorem backbone_nonneg (hf : IsBackbone f) (a : ℝ) (ha : 0 ≤ a) : 0 ≤ f a := by
  have := hf.mono (Set.mem_Ici.2 le_rfl) (Set.mem_Ici.2 ha) ha
  rwa [hf.zero] at this

/-- The trapezoidal rule for a non-decreasing function. -/
theorem trap_err (hf : IsBackbone f) (a b : ℝ) (ha : 0 ≤ a) (hab : a ≤ b) :
    |(f a + f b) * (b - a) - 2 * ∫ x in a..b, f x| ≤ (f b - f a) * (b - a) := by
  have hi := backbone_int hf a b ha (ha.trans hab)
  have h1 : (∫ _ in a..b, f a) ≤ ∫ x in a..b, f x :=
    intervalIntegral.integral_mono_on hab (by simp) hi fun x hx =>
      hf.mono (Set.mem_Ici.2 ha) (Set.mem_Ici.2 (ha.trans hx.1)) hx.1
  have h2 : (∫ x in a..b, f x) ≤ ∫ _ in a..b, f b :=
    intervalIntegral.integral_mono_on hab hi (by simp) fun x hx =>
      hf.mono (Set.mem_Ici.2 (ha.trans hx.1)) (Set.mem_Ici.2 (ha.trans hab)) hx.2
  rw [intervalIntegral.integral_const, smul_eq_mul] at h1 h2
  rw [abs_le]
  constructor <;> nlinarith

/-- Three points on a concave curve: leaving out the middle one reduces the area under the polyline. -/
theorem trap_three (hc : ConcaveOn ℝ (Set.Ici 0) f) (a b c : ℝ) (ha : 0 ≤ a) (hab : a ≤ b) (hbc : b ≤ c) :
    (f a + f c) * (c - a) ≤ (f a + f b) * (b - a) + (f b + f c) * (c - b) := by
  rcases eq_or_lt_of_le (hab.trans hbc) with h | h
  · have h1 : b = a := by linarith
    have h2 : c = a := by linarith
    rw [h1, h2]; linarith
  · have hca : 0 < c - a := by linarith
    have w1 : 0 ≤ (c - b) / (c - a) := div_nonneg (by linarith) hca.le
    have w2 : 0 ≤ (b - a) / (c - a) := div_nonneg (by linarith) hca.le
    have key := hc.2 (Set.mem_Ici.2 ha) (Set.mem_Ici.2 (ha.trans h.le)) w1 w2 (by field_simp; ring)
    have e : ((c - b) / (c - a)) • a + ((b - a) / (c - a)) • c = b := by
      simp only [smul_eq_mul]; field_simp; ring
    rw [e] at key
    simp only [smul_eq_mul] at key
    have k2 : (c - b) * f a + (b - a) * f c ≤ f b * (c - a) := by
      have := mul_le_mul_of_nonneg_right key hca.le
      have e2 : ((c - b) / (c - a) * f a + (b - a) / (c - a) * f c) * (c - a) = (c - b) * f a + (b - a) * f c := by
        field_simp
      linarith
    nlinarith

/-- The trapezoidal rule for a concave function. -/
theorem trap_below (hf : IsBackbone f) (hc : ConcaveOn ℝ (Set.Ici 0) f) (a b : ℝ) (ha : 0 ≤ a) (hab : a ≤ b) :
    (f a + f b) * (b - a) ≤ 2 * ∫ x in a..b, f x := by
  rcases eq_or_lt_of_le hab with rfl | h
  · simp
  have hba : 0 < b - a := by linarith
  have hi := backbone_int hf a b ha (ha.trans hab)
  have hl : (∫ x in a..b, (f a + (f b - f a) / (b - a) * (x - a))) ≤ ∫ x in a..b, f x := by
    apply intervalIntegral.integral_mono_on hab
    · apply Continuous.intervalIntegrable
      fun_prop
    · exact hi
    · intro x hx
      have := trap_three hc a x b ha hx.1 hx.2
      have k : f a * (b - a) + (f b - f a) * (x - a) ≤ f x * (b - a) := by nlinarith
      have e : f a + (f b - f a) / (b - a) * (x - a) = (f a * (b - a) + (f b - f a) * (x - a)) / (b - a) := by
        field_simp
      rw [e, div_le_iff₀ hba]
      exact k
  have hv : (∫ x in a..b, (f a + (f b - f a) / (b - a) * (x - a))) = (f a + f b) / 2 * (b - a) := by
    rw [intervalIntegral.integral_add (by simp) (Continuous.intervalIntegrable (by fun_prop) _ _),
      intervalIntegral.integral_const, intervalIntegral.integral_const_mul,
      intervalIntegral.integral_sub (by simp) (by simp), integral_id, intervalIntegral.integral_const]
    simp only [smul_eq_mul]
    field_simp
    ring
  rw [hv] at hl
  linarith

theorem area_split (hf : IsBackbone f) (a b : ℝ) (ha : 0 ≤ a) (hb : 0 ≤ b) :
    (∫ x in (0 : ℝ)..b, f x) = (∫ x in (0 : ℝ)..a, f x) + ∫ x in a..b, f x :=
  (intervalIntegral.integral_add_adjacent_intervals (backbone_int hf 0 a le_rfl ha) (backbone_int hf a b ha hb)).symm

theorem twiceArea_below (hf : IsBackbone f) (hc : ConcaveOn ℝ (Set.Ici 0) f) (es : List ℝ) :
    ∀ (A p : ℝ), 0 ≤ p → Climbing p es → A ≤ 2 * (∫ x in (0 : ℝ)..p, f x) →
      ∀ (i : Nat) a e, (Spec.twiceArea A (p, f p) (es.map fun x => (x, f x)))[i]? = some a → es[i]? = some e →
        a ≤ 2 * ∫ x in (0 : ℝ)..e, f x := by
  induction es with
  | nil => intro A p _ _ _ i a e _ h; simp at h
  | cons e0 es ih =>
    intro A p hp hcl hA i a e ha he
    have h0 : 0 ≤ e0 := hp.trans hcl.1.le
    have key : A + (f p + f e0) * (e0 - p) ≤ 2 * ∫ x in (0 : ℝ)..e0, f x := by
      rw [area_split hf p e0 hp h0]
      have := trap_below hf hc p e0 hp hcl.1.le
      linarith
    cases i with
    | zero =>
      simp only [List.map_cons, Spec.twiceArea, List.getElem?_cons_zero, Option.some.injEq] at ha he
      subst ha he
      exact key
    | succ i =>
      simp only [List.map_cons, Spec.twiceArea, List.getElem?_cons_succ] at ha he
      exact ih _ e0 h0 hcl.2 key i a e ha he

theorem twiceArea_err (hf : IsBackbone f) (h : ℝ) (es : List ℝ) :
    ∀ (A p : ℝ) (i : Nat), 0 ≤ p → Climbing p es → Dense h p (es.take (i + 1)) →
      |A - 2 * (∫ x in (0 : ℝ)..p, f x)| ≤ h * f p →
      ∀ a e, (Spec.twiceArea A (p, f p) (es.map fun x => (x, f x)))[i]? = some a → es[i]? = some e →
        |a - 2 * ∫ x in (0 : ℝ)..e, f x| ≤ h * f e := by
  induction es with
  | nil => intro A p i _ _ _ _ a e _ h; simp at h
  | cons e0 es ih =>
    intro A p i hp hcl hd hA a e ha he
    rw [List.take_succ_cons] at hd
    have h0 : 0 ≤ e0 := hp.trans hcl.1.le
    have key : |A + (f p + f e0) * (e0 - p) - 2 * ∫ x in (0 : ℝ)..e0, f x| ≤ h * f e0 := by
      rw [area_split hf p e0 hp h0]
      have h1 := trap_err hf p e0 hp hcl.1.le
      have hm : f p ≤ f e0 := hf.mono (Set.mem_Ici.2 hp) (Set.mem_Ici.2 h0) hcl.1.le
      have h2 : (f e0 - f p) * (e0 - p) ≤ (f e0 - f p) * h := mul_le_mul_of_nonneg_left hd.1 (by linarith)
      calc |A + (f p + f e0) * (e0 - p) - 2 * ((∫ x in (0 : ℝ)..p, f x) + ∫ x in p..e0, f x)|
          = |(A - 2 * (∫ x in (0 : ℝ)..p, f x)) + ((f p + f e0) * (e0 - p) - 2 * ∫ x in p..e0, f x)| := by
            congr 1; ring
        _ ≤ _ := abs_add_le _ _
        _ ≤ h * f p + (f e0 - f p) * h := by linarith
        _ = h * f e0 := by ring
    cases i with
    | zero =>
      simp only [List.map_cons, Spec.twiceArea, List.getElem?_cons_zero, Option.some.injEq] at ha he
      subst ha he
      exact key
    | succ i =>
      simp only [List.map_cons, Spec.twiceArea, List.getElem?_cons_succ] at ha he
      exact ih _ e0 i h0 hcl.2 hd.2 key a e ha he

theorem climbing_pos (p : ℝ) (hp : 0 ≤ p) (es : List ℝ) (h : Climbing p es) : ∀ e ∈ es, 0 < e := by
  induction es generalizing p with
  | nil => intro e he; cases he
  | cons a es ih =>
    intro e he
    rcases List.mem_cons.1 he with rfl | he
    · exact hp.trans_lt h.1
    · exact ih a (hp.trans h.1.le) h.2 e he

/-- What `calc_damping_from_stress_strain` returns for the samples of a backbone curve. -/
theorem damping_sampled (hf : IsBackbone f) (g : ℝ) (hg : g ≠ 0) (es : List ℝ) (hne : es ≠ []) (hcl : Climbing 0 es) :
    ∃ d, calcDamping Real.pi es (es.map f) g = .ok d ∧ d.length = es.length ∧
      ∀ (i : Nat) e, es[i]? = some e → ∃ a, (Spec.twiceArea 0 (0, f 0) (es.map fun x => (x, f x)))[i]? = some a ∧
        d[i]? = some (max (2 / Real.pi * (a / (f e * e) - 1)) 0) := by
  have hp := climbing_pos 0 le_rfl es hcl
  have h := C40_value Real.pi g (es.map fun e => (e, f e)) (by simpa using hne) hg (by
    intro q hq
    obtain ⟨e, he, rfl⟩ := List.mem_map.1 hq
    exact ⟨(hp e he).ne', (hf.pos e (hp e he)).ne'⟩)
  simp only [List.map_map] at h
  have e1 : es.map (Prod.fst ∘ fun e => (e, f e)) = es := by
    conv_rhs => rw [← List.map_id es]
    rfl
  have e2 : es.map (Prod.snd ∘ fun e => (e, f e)) = es.map f := rfl
  rw [e1, e2] at h
  refine ⟨_, h, ?_, ?_⟩
  · unfold Spec.hysteretic
    rw [List.length_zipWith, twiceArea_length]
    simp
  · intro i e he
    have hl : i < (Spec.twiceArea 0 (0, f 0) (es.map fun x => (x, f x))).length := by
      rw [twiceArea_length, List.length_map]
      exact (List.getElem?_eq_some_iff.1 he).1
    obtain ⟨a, ha⟩ : ∃ a, (Spec.twiceArea 0 (0, f 0) (es.map fun x => (x, f x)))[i]? = some a :=
      ⟨_, List.getElem?_eq_getElem hl⟩
    refine ⟨a, ha, ?_⟩
    unfold Spec.hysteretic
    rw [hf.zero] at ha
    rw [List.getElem?_zipWith, ha, List.getElem?_map, he]
    rfl

/-- C184, accuracy: for a curve that does not decrease, sampled at increasing strains whose distances up to `γ`, from 0 on, are at most
`h`, the damping returned for `γ` is off by at most `(2/π) h/γ` (the hysteretic damping cut off at 0, as it is in the code). -/
theorem C184_accuracy (hf : IsBackbone f) (g : ℝ) (hg : g ≠ 0) (es : List ℝ) (hne : es ≠ []) (hcl : Climbing 0 es) :
    ∃ d, calcDamping Real.pi es (es.map f) g = .ok d ∧ d.length = es.length ∧
      ∀ (i : Nat) e x h, es[i]? = some e → d[i]? = some x → Dense h 0 (es.take (i + 1)) →
        |x - max (masing f e) 0| ≤ 2 / Real.pi * (h / e) := by
  obtain ⟨d, h1, h2, h3⟩ := damping_sampled hf g hg es hne hcl
  refine ⟨d, h1, h2, fun i e x h he hx hd => ?_⟩
  obtain ⟨a, ha, hxa⟩ := h3 i e he
  rw [hxa] at hx
  cases hx
  have hpe := climbing_pos 0 le_rfl es hcl e (List.mem_of_getElem? he)
  have hfe := hf.pos e hpe
  have hpi := Real.pi_pos
  have key := twiceArea_err hf h es 0 0 i le_rfl hcl hd (by simp [hf.zero]) a e ha he
  refine (abs_max_sub_max_le_abs _ _ _).trans ?_
  unfold masing
  have e1 : 2 / Real.pi * (a / (f e * e) - 1) - 2 / Real.pi * (2 * (∫ x in (0 : ℝ)..e, f x) / (f e * e) - 1) =
      2 / Real.pi * ((a - 2 * ∫ x in (0 : ℝ)..e, f x) / (f e * e)) := by ring
  rw [e1, abs_mul, abs_of_pos (by positivity : (0 : ℝ) < 2 / Real.pi), abs_div, abs_of_pos (mul_pos hfe hpe)]
  apply mul_le_mul_of_nonneg_left _ (by positivity)
  rw [div_le_div_iff₀ (mul_pos hfe hpe) hpe]
  calc |a - 2 * ∫ x in (0 : ℝ)..e, f x| * e ≤ h * f e * e := mul_le_mul_of_nonneg_right key hpe.le
    _ = h * (f e * e) := by ring

/-- C184, side of the error: for a concave curve the damping returned is never larger than the hysteretic damping of the curve. -/
theorem C184_below (hf : IsBackbone f) (hc : ConcaveOn ℝ (Set.Ici 0) f) (g : ℝ) (hg : g ≠ 0) (es : List ℝ) (hne : es ≠ [])
    (hcl : Climbing 0 es) :
    ∃ d, calcDamping Real.pi es (es.map f) g = .ok d ∧ d.length = es.length ∧
      ∀ (i : Nat) e x, es[i]? = some e → d[i]? = some x → 0 ≤ x ∧ x ≤ masing f e := by
  obtain ⟨d, h1, h2, h3⟩ := damping_sampled hf g hg es hne hcl
  refine ⟨d, h1, h2, fun i e x he hx => ?_⟩
  obtain ⟨a, ha, hxa⟩ := h3 i e he
  rw [hxa] at hx
  cases hx
  have hpe := climbing_pos 0 le_rfl es hcl e (List.mem_of_getElem? he)
  have hfe := hf.pos e hpe
  have hpi := Real.pi_pos
  refine ⟨le_max_right _ _, max_le ?_ ?_⟩
  · have key := twiceArea_below hf hc es 0 0 le_rfl hcl (by simp) i a e ha he
    unfold masing
    apply mul_le_mul_of_nonneg_left _ (by positivity)
    have := div_le_div_of_nonneg_right key (mul_pos hfe hpe).le
    linarith
  · have key := trap_below hf hc 0 e le_rfl hpe.le
    unfold masing
    apply mul_nonneg (by positivity)
    rw [sub_nonneg, le_div_iff₀ (mul_pos hfe hpe), hf.zero] at *
    linarith

theorem area_refine (hc : ConcaveOn ℝ (Set.Ici 0) f) {es fs : List ℝ} (hs : List.Sublist es fs) :
    ∀ (A B p q : ℝ), 0 ≤ p → p ≤ q → Climbing p es → Climbing q fs → A + (f p + f q) * (q - p) ≤ B →
      ∀ (i : Nat) a e, (Spec.twiceArea A (p, f p) (es.map fun x => (x, f x)))[i]? = some a → es[i]? = some e →
        ∃ (j : Nat) (b : ℝ), fs[j]? = some e ∧ (Spec.twiceArea B (q, f q) (fs.map fun x => (x, f x)))[j]? = some b ∧ a ≤ b := by
  induction hs with
  | slnil => intro A B p q _ _ _ _ _ i a e _ h; simp at h
  | cons b hs ih =>
    intro A B p q hp hpq h1 h2 hAB i a e ha he
    have h3 := trap_three hc p q b hp hpq h2.1.le
    obtain ⟨j, c, hj, hb, hab⟩ := ih A (B + (f q + f b) * (b - q)) p b hp (hpq.trans h2.1.le) h1 h2.2 (by linarith) i a e ha he
    exact ⟨j + 1, c, by simpa using hj, by simpa [Spec.twiceArea] using hb, hab⟩
  | cons_cons b hs ih =>
    intro A B p q hp hpq h1 h2 hAB i a e ha he
    have h3 := trap_three hc p q b hp hpq h2.1.le
    have h4 : A + (f p + f b) * (b - p) ≤ B + (f q + f b) * (b - q) := by linarith
    cases i with
    | zero =>
      simp only [List.map_cons, Spec.twiceArea, List.getElem?_cons_zero, Option.some.injEq] at ha he
      subst ha he
      exact ⟨0, _, rfl, rfl, h4⟩
    | succ i =>
      simp only [List.map_cons, Spec.twiceArea, List.getElem?_cons_succ] at ha he
      obtain ⟨j, c, hj, hb, hab⟩ := ih _ (B + (f q + f b) * (b - q)) b b (hp.trans h1.1.le) le_rfl h1.2 h2.2
        (by linarith) i a e ha he
      exact ⟨j + 1, c, by simpa using hj, by simpa [Spec.twiceArea] using hb, hab⟩

/-- C184, finer sampling: more strains never reduce the damping at a strain already there (concave curves), so with
`C184_below` they bring it closer to that of the curve. -/
theorem C184_refine (hf : IsBackbone f) (hc : ConcaveOn ℝ (Set.Ici 0) f) (g : ℝ) (hg : g ≠ 0) (es fs : List ℝ) (hne : es ≠ [])
    (h1 : Climbing 0 es) (h2 : Climbing 0 fs) (hs : List.Sublist es fs) :
    ∃ d d', calcDamping Real.pi es (es.map f) g = .ok d ∧ calcDamping Real.pi fs (fs.map f) g = .ok d' ∧
      ∀ (i : Nat) e x, es[i]? = some e → d[i]? = some x →
        ∃ (j : Nat) (y : ℝ), fs[j]? = some e ∧ d'[j]? = some y ∧ x ≤ y ∧ y ≤ masing f e := by
  have hne' : fs ≠ [] := by
    rintro rfl
    exact hne (List.sublist_nil.1 hs)
  obtain ⟨d, a1, a2, a3⟩ := damping_sampled hf g hg es hne h1
  obtain ⟨d', b1, b2, b3⟩ := damping_sampled hf g hg fs hne' h2
  obtain ⟨d'', c1, c2, c3⟩ := C184_below hf hc g hg fs hne' h2
  rw [b1] at c1
  cases c1
  refine ⟨d, d', a1, b1, fun i e x he hx => ?_⟩
  obtain ⟨a, ha, hxa⟩ := a3 i e he
  rw [hxa] at hx
  cases hx
  obtain ⟨j, b, hj, hb, hab⟩ := area_refine hc hs 0 0 0 0 le_rfl le_rfl h1 h2 (by simp) i a e ha he
  obtain ⟨b', hb', hy⟩ := b3 j e hj
  rw [hb] at hb'
  cases hb'
  have hpe := climbing_pos 0 le_rfl es h1 e (List.mem_of_getElem? he)
  have hfe := hf.pos e hpe
  refine ⟨j, _, hj, hy, ?_, (c3 j e _ hj hy).2⟩
  apply max_le_max _ le_rfl
  apply mul_le_mul_of_nonneg_left _ (by have := Real.pi_pos; positivity)
  have := div_le_div_of_nonneg_right hab (mul_pos hfe hpe).le
  linarith

theorem dense_mono {h h' : ℝ} (hh : h ≤ h') : ∀ (es : List ℝ) (p : ℝ), Dense h p es → Dense h' p es
  | [], _, _ => trivial
  | e :: es, _, hd => ⟨hd.1.trans hh, dense_mono hh es e hd.2⟩

theorem climbing_le : ∀ (es : List ℝ) (p : ℝ), Climbing p es → ∀ e ∈ es, p ≤ e
  | [], _, _, e, he => by cases he
  | a :: es, p, h, e, he => by
    rcases List.mem_cons.1 he with rfl | he
    · exact h.1.le
    · exact h.1.le.trans (climbing_le es a h.2 e he)

theorem dense_ratio (q : ℝ) (hq : 1 ≤ q) : ∀ (es : List ℝ) (p : ℝ), 0 < p → Climbing p es → Ratio q p es → ∀ (i : Nat) e,
    es[i]? = some e → Dense ((1 - 1 / q) * e) p (es.take (i + 1))
  | [], _, _, _, _, i, e, h => by simp at h
  | a :: es, p, hp, hcl, hr, i, e, he => by
    have hq0 : 0 < q := by linarith
    have hae : a ≤ e := by
      have : e ∈ a :: es := List.mem_of_getElem? he
      rcases List.mem_cons.1 this with h | h
      · exact h.ge
      · exact climbing_le es a hcl.2 e h
    have h1 : 0 ≤ 1 - 1 / q := by
      rw [sub_nonneg, div_le_one hq0]; exact hq
    have step : a - p ≤ (1 - 1 / q) * e := by
      have : a / q ≤ p := by rw [div_le_iff₀ hq0]; linarith [hr.1]
      calc a - p ≤ a - a / q := by linarith
        _ = (1 - 1 / q) * a := by ring
        _ ≤ (1 - 1 / q) * e := mul_le_mul_of_nonneg_left hae h1
    rw [List.take_succ_cons]
    refine ⟨step, ?_⟩
    cases i with
    | zero => rw [List.take_zero]; trivial
    | succ i => exact dense_ratio q hq es a (hp.trans hcl.1) hcl.2 hr.2 i e (by simpa using he)

/-- C184, accuracy on a logarithmic grid: if every strain is at most `q` times the one before it, the damping at the strain `e` is off
by at most `2/π` times the larger of `1 - 1/q` and (first strain)/`e`. -/
theorem C184_geometric (hf : IsBackbone f) (g q : ℝ) (hg : g ≠ 0) (hq : 1 ≤ q) (e0 : ℝ) (es : List ℝ)
    (hcl : Climbing 0 (e0 :: es)) (hr : Ratio q e0 es) :
    ∃ d, calcDamping Real.pi (e0 :: es) ((e0 :: es).map f) g = .ok d ∧ d.length = es.length + 1 ∧
      ∀ (i : Nat) e x, (e0 :: es)[i]? = some e → d[i]? = some x →
        |x - max (masing f e) 0| ≤ 2 / Real.pi * max (1 - 1 / q) (e0 / e) := by
  obtain ⟨d, h1, h2, h3⟩ := C184_accuracy hf g hg (e0 :: es) (by simp) hcl
  refine ⟨d, h1, by rw [h2]; rfl, fun i e x he hx => ?_⟩
  have hpe := climbing_pos 0 le_rfl _ hcl e (List.mem_of_getElem? he)
  have hd : Dense (max ((1 - 1 / q) * e) e0) 0 ((e0 :: es).take (i + 1)) := by
    rw [List.take_succ_cons]
    refine ⟨by rw [sub_zero]; exact le_max_right _ _, ?_⟩
    cases i with
    | zero => rw [List.take_zero]; trivial
    | succ i => exact dense_mono (le_max_left _ _) _ _ (dense_ratio q hq es e0 hcl.1 hcl.2 hr i e (by simpa using he))
  have := h3 i e x _ he hx hd
  have e2 : max ((1 - 1 / q) * e) e0 / e = max (1 - 1 / q) (e0 / e) := by
    rw [← max_div_div_right hpe.le, mul_div_assoc, div_self hpe.ne', mul_one]
  rwa [e2] at this

end

/-! ## The MKZ model -/

section
variable {gr beta s G : ℝ}

theorem mkz_hasDeriv (h1 : 0 < gr) (h2 : 0 < beta) (x : ℝ) (hx : 0 < x) :
    HasDerivAt (tauMKZ gr beta s G) (G * (1 + (1 - s) * (beta * (x / gr) ^ s)) / (1 + beta * (x / gr) ^ s) ^ 2) x := by
  have hxg : 0 < x / gr := div_pos hx h1
  have hpow : 0 < (x / gr) ^ s := Real.rpow_pos_of_pos hxg s
  have hden : (1 + beta * (x / gr) ^ s) ≠ 0 := by positivity
  have d1 : HasDerivAt (fun y : ℝ => (y / gr) ^ s) (1 / gr * s * (x / gr) ^ (s - 1)) x :=
    ((hasDerivAt_id x).div_const gr).rpow_const (Or.inl hxg.ne')
  have d2 : HasDerivAt (fun y : ℝ => G * y / (1 + beta * (y / gr) ^ s))
      ((G * 1 * (1 + beta * (x / gr) ^ s) - G * x * (beta * (1 / gr * s * (x / gr) ^ (s - 1)))) /
        (1 + beta * (x / gr) ^ s) ^ 2) x :=
    HasDerivAt.div ((hasDerivAt_id x).const_mul G) ((d1.const_mul beta).const_add 1) hden
  have e : G * 1 * (1 + beta * (x / gr) ^ s) - G * x * (beta * (1 / gr * s * (x / gr) ^ (s - 1))) =
      G * (1 + (1 - s) * (beta * (x / gr) ^ s)) := by
    have : (x / gr) ^ s = (x / gr) * (x / gr) ^ (s - 1) := by
      rw [mul_comm, ← Real.rpow_add_one hxg.ne']; congr 1; ring
    have e3 : G * x * (beta * (1 / gr * s * (x / gr) ^ (s - 1))) = G * beta * s * ((x / gr) * (x / gr) ^ (s - 1)) := by
      field_simp
    rw [e3, ← this]; ring
  rw [e] at d2
  refine d2.congr_of_eventuallyEq ?_
  filter_upwards [lt_mem_nhds hx] with y hy
  unfold tauMKZ
  rw [abs_of_pos hy]

theorem mkz_cont (h1 : 0 < gr) (h2 : 0 < beta) (hs : 0 < s) : Continuous (tauMKZ gr beta s G) := by
  unfold tauMKZ
  refine Continuous.div (by fun_prop) ?_ fun x => ?_
  · exact continuous_const.add (continuous_const.mul
      ((continuous_abs.div_const gr).rpow_const fun x => Or.inr hs.le))
  · have : 0 ≤ (|x| / gr) ^ s := Real.rpow_nonneg (by positivity) s
    positivity

theorem mkz_diffOn (h1 : 0 < gr) (h2 : 0 < beta) : DifferentiableOn ℝ (tauMKZ gr beta s G) (interior (Set.Ici 0)) := by
  rw [interior_Ici]
  exact fun x hx => (mkz_hasDeriv h1 h2 x hx).differentiableAt.differentiableWithinAt

/-- The MKZ stress starts at the origin, does not decrease and is positive, for exponents up to 1. -/
theorem mkz_isBackbone (h1 : 0 < gr) (h2 : 0 < beta) (hs : 0 < s) (hs1 : s ≤ 1) (hG : 0 < G) : IsBackbone (tauMKZ gr beta s G) := by
  refine ⟨by simp [tauMKZ], ?_, fun x hx => tauMKZ_pos gr beta s G h1 h2 hG x hx⟩
  apply monotoneOn_of_deriv_nonneg (convex_Ici 0) (mkz_cont h1 h2 hs).continuousOn (mkz_diffOn h1 h2)
  rw [interior_Ici]
  intro x hx
  rw [(mkz_hasDeriv h1 h2 x hx).deriv]
  have hpow : 0 < (x / gr) ^ s := Real.rpow_pos_of_pos (div_pos hx h1) s
  have : 0 ≤ 1 - s := by linarith
  positivity

/-- The MKZ stress is concave, for exponents up to 1. -/
theorem mkz_concave (h1 : 0 < gr) (h2 : 0 < beta) (hs : 0 < s) (hs1 : s ≤ 1) (hG : 0 < G) :
    ConcaveOn ℝ (Set.Ici 0) (tauMKZ gr beta s G) := by
  apply AntitoneOn.concaveOn_of_deriv (convex_Ici 0) (mkz_cont h1 h2 hs).continuousOn (mkz_diffOn h1 h2)
  rw [interior_Ici]
  intro x hx y hy hxy
  rw [(mkz_hasDeriv h1 h2 x hx).deriv, (mkz_hasDeriv h1 h2 y hy).deriv]
  have px : 0 < (x / gr) ^ s := Real.rpow_pos_of_pos (div_pos hx h1) s
  have hle : (x / gr) ^ s ≤ (y / gr) ^ s :=
    Real.rpow_le_rpow (div_pos hx h1).le (div_le_div_of_nonneg_right hxy h1.le) hs.le
  set u := beta * (x / gr) ^ s with hu
  set v := beta * (y / gr) ^ s with hv
  have hu0 : 0 < u := mul_pos h2 px
  have huv : u ≤ v := mul_le_mul_of_nonneg_left hle h2.le
  have h1s : 0 ≤ 1 - s := by linarith
  rw [mul_div_assoc, mul_div_assoc]
  apply mul_le_mul_of_nonneg_left _ hG.le
  have hv0 : 0 < v := hu0.trans_le huv
  have e : ∀ w : ℝ, 0 < w → (1 + (1 - s) * w) / (1 + w) ^ 2 = (1 - s) * (1 / (1 + w)) + s * (1 / (1 + w) ^ 2) := by
    intro w hw
    have : (1 + w) ≠ 0 := by positivity
    field_simp
    ring
  rw [e u hu0, e v hv0]
  have i1 : 1 / (1 + v) ≤ 1 / (1 + u) := one_div_le_one_div_of_le (by positivity) (by linarith)
  have i2 : 1 / (1 + v) ^ 2 ≤ 1 / (1 + u) ^ 2 := by
    apply one_div_le_one_div_of_le (by positivity)
    gcongr
  exact add_le_add (mul_le_mul_of_nonneg_left i1 h1s) (mul_le_mul_of_nonneg_left i2 hs.le)

theorem dampingFromParam_mkz (d : Dict ℝ) (h : MKZSet d gr s beta G) (strain : List ℝ) :
    dampingFromParam .mkz d strain = calcDamping Real.pi strain (strain.map (tauMKZ gr beta s G)) G := by
  unfold dampingFromParam
  simp only [stressOf_mkz d gr s beta G h, h.G, bind, Except.bind]

theorem climbing_div (c : ℝ) (hc : 0 < c) : ∀ (es : List ℝ) (p : ℝ), Climbing p es → Climbing (p / c) (es.map (· / c))
  | [], _, _ => trivial
  | e :: es, p, h => ⟨div_lt_div_of_pos_right h.1 hc, climbing_div c hc es e h.2⟩

theorem dense_div (c : ℝ) (hc : 0 < c) (h : ℝ) : ∀ (es : List ℝ) (p : ℝ), Dense h p es → Dense (h / c) (p / c) (es.map (· / c))
  | [], _, _ => trivial
  | e :: es, p, hd => ⟨by rw [← sub_div]; exact div_le_div_of_nonneg_right hd.1 hc.le, dense_div c hc h es e hd.2⟩

/-- C184 for `MKZ_Param.get_damping`, strains and damping in percent: the values lie between 0 and the hysteretic damping of the
MKZ model, and miss it by at most `200/π` times `h/e`, where `h` is the largest distance between the strains up to `e`. -/
theorem C184_mkz (d : Dict ℝ) (h : MKZSet d gr s beta G) (h1 : 0 < gr) (h2 : 0 < beta) (hs : 0 < s) (hs1 : s ≤ 1) (hG : 0 < G)
    (pct : List ℝ) (hne : pct ≠ []) (hcl : Climbing 0 pct) :
    ∃ x, paramDamping .mkz d pct = .ok x ∧ x.length = pct.length ∧
      ∀ (i : Nat) e y, pct[i]? = some e → x[i]? = some y →
        0 ≤ y ∧ y ≤ 100 * masing (tauMKZ gr beta s G) (e / 100) ∧
        ∀ w, Dense w 0 (pct.take (i + 1)) → 100 * masing (tauMKZ gr beta s G) (e / 100) - y ≤ 200 / Real.pi * (w / e) := by
  have hb := mkz_isBackbone (G := G) h1 h2 hs hs1 hG
  have hc := mkz_concave (G := G) h1 h2 hs hs1 hG
  have hcl' : Climbing 0 (pct.map (· / 100)) := by
    have := climbing_div 100 (by norm_num) pct 0 hcl
    rwa [zero_div] at this
  have hne' : pct.map (· / 100) ≠ [] := by simpa using hne
  obtain ⟨x, a1, a2, a3⟩ := C184_below hb hc G hG.ne' _ hne' hcl'
  obtain ⟨x', b1, b2, b3⟩ := C184_accuracy hb G hG.ne' _ hne' hcl'
  rw [a1] at b1
  cases b1
  refine ⟨x.map (· * 100), ?_, by rw [List.length_map, a2, List.length_map], fun i e y he hy => ?_⟩
  · unfold paramDamping
    rw [dampingFromParam_mkz d h, a1]
    rfl
  · rw [List.getElem?_map, Option.map_eq_some_iff] at hy
    obtain ⟨z, hz, rfl⟩ := hy
    have he' : (pct.map (· / 100))[i]? = some (e / 100) := by rw [List.getElem?_map, he]; rfl
    obtain ⟨c1, c2⟩ := a3 i _ z he' hz
    refine ⟨by positivity, by linarith, fun w hw => ?_⟩
    have hd := dense_div 100 (by norm_num) w _ _ hw
    rw [zero_div, List.map_take] at hd
    have := b3 i _ z _ he' hz hd
    rw [max_eq_left (c1.trans c2), abs_sub_comm, abs_of_nonneg (by linarith)] at this
    have e4 : w / 100 / (e / 100) = w / e := div_div_div_cancel_right₀ (by norm_num) w e
    rw [e4] at this
    have e5 : 200 / Real.pi * (w / e) = 100 * (2 / Real.pi * (w / e)) := by ring
    rw [e5]
    linarith

/-- The property fails in that the damping at a strain depends on the other strains asked for: for every MKZ parameter set and every
strain `e`, the damping at `e` is 0 if it is asked for alone, positive if it is asked for together with `e/2`, and smaller than the
hysteretic damping of the model in both cases. -/
theorem C184_sampling_violated (d : Dict ℝ) (h : MKZSet d gr s beta G) (h1 : 0 < gr) (h2 : 0 < beta) (hs : 0 < s) (hs1 : s ≤ 1)
    (hG : 0 < G) (e : ℝ) (he : 0 < e) :
    dampingFromParam .mkz d [e] = .ok [0] ∧
    ∃ y, dampingFromParam .mkz d [e / 2, e] = .ok [0, y] ∧ 0 < y ∧ y ≤ masing (tauMKZ gr beta s G) e := by
  have hb := mkz_isBackbone (G := G) h1 h2 hs hs1 hG
  have hc := mkz_concave (G := G) h1 h2 hs hs1 hG
  have hp : ∀ x : ℝ, 0 < x → 0 < tauMKZ gr beta s G x := fun x hx => tauMKZ_pos gr beta s G h1 h2 hG x hx
  have he2 : 0 < e / 2 := by positivity
  rw [dampingFromParam_mkz d h, dampingFromParam_mkz d h]
  have hv : ∀ es : List ℝ, es ≠ [] → (∀ x ∈ es, 0 < x) → calcDamping Real.pi es (es.map (tauMKZ gr beta s G)) G =
      .ok (Spec.hysteretic Real.pi (es.map fun x => (x, tauMKZ gr beta s G x))) := by
    intro es hne hpos
    have k := C40_value Real.pi G (es.map fun x => (x, tauMKZ gr beta s G x)) (by simpa using hne) hG.ne' (by
      intro q hq
      obtain ⟨x, hx, rfl⟩ := List.mem_map.1 hq
      exact ⟨(hpos x hx).ne', (hp x (hpos x hx)).ne'⟩)
    simp only [List.map_map] at k
    have e1 : es.map (Prod.fst ∘ fun x => (x, tauMKZ gr beta s G x)) = es := by
      conv_rhs => rw [← List.map_id es]
      rfl
    rw [e1] at k
    exact k
  have first : ∀ x, 0 < x → (2 / Real.pi * ((0 + (0 + tauMKZ gr beta s G x) * (x - 0)) / (tauMKZ gr beta s G x * x) - 1)) = 0 := by
    intro x hx
    have := hp x hx
    rw [zero_add, zero_add, sub_zero, div_self (mul_pos this hx).ne', sub_self, mul_zero]
  have hlt : tauMKZ gr beta s G e < 2 * tauMKZ gr beta s G (e / 2) := by
    unfold tauMKZ
    rw [abs_of_pos he, abs_of_pos he2]
    have p1 : 0 < (e / 2 / gr) ^ s := Real.rpow_pos_of_pos (by positivity) s
    have p2 : (e / 2 / gr) ^ s < (e / gr) ^ s :=
      Real.rpow_lt_rpow (by positivity) (div_lt_div_of_pos_right (by linarith) h1) hs
    have e6 : 2 * (G * (e / 2) / (1 + beta * (e / 2 / gr) ^ s)) = G * e / (1 + beta * (e / 2 / gr) ^ s) := by ring
    rw [e6]
    apply div_lt_div_of_pos_left (by positivity) (by positivity)
    have := mul_lt_mul_of_pos_left p2 h2
    linarith
  refine ⟨?_, ?_⟩
  · rw [hv [e] (by simp) (by simpa using he)]
    simp only [Spec.hysteretic, List.map_cons, List.map_nil, Spec.twiceArea, List.zipWith_cons_cons, List.zipWith_nil_left, first e he,
      max_self]
  · have hcl : Climbing 0 [e / 2, e] := ⟨he2, by linarith, trivial⟩
    obtain ⟨x, c1, c2, c3⟩ := C184_below hb hc G hG.ne' [e / 2, e] (by simp) hcl
    have hval := hv [e / 2, e] (by simp) (by simp [he])
    rw [c1] at hval
    have hx := Except.ok.inj hval
    simp only [Spec.hysteretic, List.map_cons, List.map_nil, Spec.twiceArea, List.zipWith_cons_cons, List.zipWith_nil_left,
      first _ he2, max_self] at hx
    refine ⟨_, by rw [c1, hx], ?_, ?_⟩
    · apply lt_of_lt_of_le _ (le_max_left _ _)
      have hpi := Real.pi_pos
      apply mul_pos (by positivity)
      rw [sub_pos, lt_div_iff₀ (mul_pos (hp e he) he)]
      nlinarith
    · exact (c3 1 e _ rfl (by rw [hx]; rfl)).2

end

/-- The hypotheses of the theorems on curves hold, for instance, for the hyperbolic model. -/
example : IsBackbone (tauMKZ (1 / 1000) 1 1 100) ∧ ConcaveOn ℝ (Set.Ici 0) (tauMKZ (1 / 1000) 1 1 100) ∧
    Climbing 0 [1 / 1000, 2 / 1000, 4 / 1000] ∧ Ratio 2 (1 / 1000) [2 / 1000, 4 / 1000] :=
  ⟨mkz_isBackbone (by norm_num) (by norm_num) (by norm_num) le_rfl (by norm_num),
    mkz_concave (by norm_num) (by norm_num) (by norm_num) le_rfl (by norm_num),
    ⟨by norm_num, by norm_num, by norm_num, trivial⟩, ⟨by norm_num, by norm_num, trivial⟩⟩

end Verif
