import Verif.Model.Typed
import Verif.Props.MotionObj
import Verif.Props.Calib
import Mathlib.Algebra.Order.Floor.Ring

/-!
C154: numbers given as integers are treated like the same real numbers.
-/

set_option linter.unusedSectionVars false
set_option linter.unusedVariables false

namespace Verif

namespace Spec

/-- `y` is `x` without its fractional part. -/
def CutOff {K : Type} [_root_.Field K] [LinearOrder K] (x y : K) : Prop :=
  (∃ z : ℤ, y = z) ∧ |y| ≤ |x| ∧ |x - y| < 1 ∧ 0 ≤ x * y

end Spec

open Spec (CutOff toSI given massAbove)

section C154
variable {K : Type} [Field K] [LinearOrder K] [IsStrictOrderedRing K] [FloorRing K]

theorem castTo_cut (x : K) : CutOff x (castTo true x) := by
  unfold castTo pyInt
  rw [if_pos rfl]
  by_cases h : 0 ≤ x
  · rw [if_pos h]
    have h0 : (0 : K) ≤ (⌊x⌋ : K) := by exact_mod_cast Int.floor_nonneg.2 h
    have h1 := Int.floor_le x
    have h2 := Int.lt_floor_add_one x
    refine ⟨⟨_, rfl⟩, ?_, ?_, mul_nonneg h h0⟩
    · rwa [abs_of_nonneg h0, abs_of_nonneg h]
    · rw [abs_lt]; constructor <;> linarith
  · rw [if_neg h]
    have h' : x < 0 := not_le.1 h
    have h0 : ((⌈x⌉ : ℤ) : K) ≤ 0 := by exact_mod_cast Int.ceil_le.2 (by simpa using h'.le)
    have h1 := Int.le_ceil x
    have h2 := Int.ceil_lt_add_one x
    refine ⟨⟨_, rfl⟩, ?_, ?_, mul_nonneg_of_nonpos_of_nonpos h'.le h0⟩
    · rw [abs_of_nonpos h0, abs_of_neg h']; linarith
    · rw [abs_lt]; constructor <;> linarith

theorem cutOff_int (z : ℤ) : CutOff (z : K) (z : K) :=
  ⟨⟨z, rfl⟩, le_refl _, by simp, mul_self_nonneg _⟩

/-- A number without fractional part is determined. -/
theorem cutOff_unique {x y y' : K} (h : CutOff x y) (h' : CutOff x y') : y = y' := by
  obtain ⟨⟨z, rfl⟩, a1, a2, a3⟩ := h
  obtain ⟨⟨z', rfl⟩, b1, b2, b3⟩ := h'
  have key : ∀ p q : ℤ, |(p : K)| ≤ |x| → |x - (p : K)| < 1 → 0 ≤ x * (p : K) → |(q : K)| ≤ |x| → |x - (q : K)| < 1 → 0 ≤ x * (q : K) → p ≤ q := by
    intro p q p1 p2 p3 q1 q2 q3
    by_contra hlt
    have hlt : q + 1 ≤ p := by omega
    have hlt' : (q : K) + 1 ≤ p := by exact_mod_cast hlt
    rw [abs_lt] at p2 q2
    rcases le_or_gt 0 x with hx | hx
    · rw [abs_of_nonneg hx] at p1 q1
      have := le_abs_self (p : K)
      linarith
    · rw [abs_of_neg hx] at p1 q1
      have := neg_abs_le (q : K)
      linarith
  have := key z z' a1 a2 a3 b1 b2 b3
  have := key z' z b1 b2 b3 a1 a2 a3
  congr 1
  omega

theorem toSICol_length (int : Bool) (unit : MUnit) (d : Rec K) : (toSICol int unit d).length = d.length := by
  cases unit <;> simp [toSICol, assignCol]

theorem toSICol_times (int : Bool) (unit : MUnit) (d : Rec K) : (toSICol int unit d).map Prod.fst = d.map Prod.fst := by
  cases unit <;> simp [toSICol, assignCol, Function.comp_def]

theorem toSICol_float (unit : MUnit) (d : Rec K) : toSICol false unit d = d.map fun p => (p.1, toSI unit p.2) := by
  cases unit <;> simp [toSICol, assignCol, castTo, toSI]

/-- Every stored value of an integer array is the SI value without its fractional part. -/
theorem toSICol_int (unit : MUnit) (d : Rec K) (hd : ∀ p ∈ d, ∃ z : ℤ, p.2 = z) :
    List.Forall₂ (fun p q => q.1 = p.1 ∧ CutOff (toSI unit p.2) q.2) d (toSICol true unit d) := by
  have conv : ∀ f : K → K, (∀ v, toSI unit v = f v) →
      List.Forall₂ (fun p q => q.1 = p.1 ∧ CutOff (toSI unit p.2) q.2) d (assignCol true f d) := by
    intro f hf
    unfold assignCol
    rw [List.forall₂_map_right_iff]
    exact List.forall₂_same.2 fun p _ => ⟨rfl, by rw [hf]; exact castTo_cut _⟩
  have same : (∀ v : K, toSI unit v = v) →
      List.Forall₂ (fun p q => q.1 = p.1 ∧ CutOff (toSI unit p.2) q.2) d d := by
    intro hf
    refine List.forall₂_same.2 fun p hp => ⟨rfl, ?_⟩
    obtain ⟨z, hz⟩ := hd p hp
    rw [hf, hz]
    exact cutOff_int z
  cases unit
  case cm => exact conv _ fun _ => rfl
  case cmps => exact conv _ fun _ => rfl
  case cmpss => exact conv _ fun _ => rfl
  case gal => exact conv _ fun _ => rfl
  case g => exact conv _ fun _ => rfl
  all_goals exact same fun _ => rfl

theorem dtOf_congr {x y : Rec K} (h : x.map Prod.fst = y.map Prod.fst) : dtOf x = dtOf y := by
  match x, y with
  | [], [] => rfl
  | [], _ :: _ => simp at h
  | _ :: _, [] => simp at h
  | [_], [_] => rfl
  | [_], _ :: _ :: _ => simp at h
  | _ :: _ :: _, [_] => simp at h
  | a :: b :: _, c :: d :: _ =>
    simp only [List.map_cons, List.cons.injEq] at h
    simp [dtOf, h.1, h.2.1]

/-- An accepted construction from integers shows the cut-off values. -/
theorem mkMotionT_given (σ τ : CStore K) (a : Nat) (d : Rec K) (ha : σ[a]? = some d) (int : Bool) (unit : MUnit) (ty : MType)
    (delta : Option K) (m : Motion K) (h : mkMotionT σ a int unit ty delta = (.ok m, τ)) :
    (given m ty).read τ = toSICol int unit d ∧ m.pga = maxAbs (Spec.vals (m.accel.read τ)) := by
  have hal : a < σ.length := by
    by_contra hn; rw [List.getElem?_eq_none (by omega)] at ha; cases ha
  unfold mkMotionT at h
  cases hr : readTwo σ (.two a) delta with
  | error e => rw [hr] at h; cases h
  | ok r =>
    rw [hr] at h
    simp only at h
    by_cases h1 : unit = .bad
    · rw [if_pos h1] at h; cases h
    rw [if_neg h1] at h
    by_cases h2 : ty = .bad
    · rw [if_pos h2] at h; cases h
    rw [if_neg h2] at h
    by_cases h3 : (unit = .g ∨ unit = .gal) ∧ ty ≠ .accel
    · rw [if_pos h3] at h; cases h
    rw [if_neg h3, ha, Option.getD_some] at h
    obtain ⟨g1, _, _, g2, _⟩ := C20_values _ τ a (toSICol int unit d) (List.getElem?_set_self hal) .m ty delta m h
    refine ⟨?_, g2⟩
    rw [g1]
    simp [toSI]

/-- Real-valued arrays: the typed constructor is the one of the other claims. -/
theorem mkMotionT_float (σ : CStore K) (a : Nat) (d : Rec K) (ha : σ[a]? = some d) (unit : MUnit) (ty : MType) (delta : Option K) :
    mkMotionT σ a false unit ty delta = mkMotion σ (.two a) unit ty delta := by
  have hal : a < σ.length := by
    by_contra hn; rw [List.getElem?_eq_none (by omega)] at ha; cases ha
  unfold mkMotionT
  cases hr : readTwo σ (.two a) delta with
  | error e => unfold mkMotion; rw [hr]
  | ok r =>
    obtain ⟨w, dt⟩ := r
    obtain ⟨rfl, x, hx, hdt⟩ := readTwo_view hr
    rw [ha] at hx; cases hx
    simp only [ha, Option.getD_some]
    have hset : (σ.set a (toSICol false unit d))[a]? = some (toSICol false unit d) := List.getElem?_set_self hal
    have hr' : readTwo (σ.set a (toSICol false unit d)) (.two a) delta = .ok (.view a, dt) := by
      have hne : ∀ p, toSICol false unit d ≠ [p] := by
        intro p hp
        have hl := congrArg List.length hp
        rw [toSICol_length] at hl
        obtain ⟨q, rfl⟩ := List.length_eq_one_iff.1 hl
        simp [dtOf] at hdt
      unfold readTwo
      simp only [hset]
      have hd' : dtOf (toSICol false unit d) = .ok dt := by rw [dtOf_congr (toSICol_times false unit d), hdt]
      cases hc : toSICol false unit d with
      | nil => rw [hc] at hd'; simp [dtOf] at hd'
      | cons p rest =>
        cases rest with
        | nil => exact absurd hc (hne p)
        | cons q rest =>
          rw [hc] at hd'
          simp only [hd']
          rfl
    unfold mkMotion
    simp only [hr, hr']
    by_cases h1 : unit = .bad
    · rw [if_pos h1, if_pos h1]
    rw [if_neg h1, if_neg h1]
    by_cases h2 : ty = .bad
    · rw [if_pos h2, if_pos h2]
    rw [if_neg h2, if_neg h2]
    by_cases h3 : (unit = .g ∨ unit = .gal) ∧ ty ≠ .accel
    · rw [if_pos h3, if_neg h2, if_pos h3]
    rw [if_neg h3, if_neg h2, if_neg h3]
    have e : toSIinPlace σ (Where.view a) unit = (Where.view a, σ.set a (toSICol false unit d)) := by
      have e0 : σ.set a d = σ := by
        apply List.ext_getElem?
        intro i
        rw [List.getElem?_set]
        by_cases hi : a = i
        · subst hi; rw [ha]; simp [hal]
        · simp [hi]
      rw [toSICol_float]
      cases unit <;> simp [toSIinPlace, unitFactor, Where.scale, scaleCols, ha, toSI, div_eq_mul_inv, e0] at h1 ⊢
    have e' : toSIinPlace (σ.set a (toSICol false unit d)) (Where.view a) .m = (Where.view a, σ.set a (toSICol false unit d)) := rfl
    rw [e, e']
    simp

/-- C154 for motions, what the object holds: from a two-column integer array the constructor keeps the times and stores
the SI values without their fractional parts (SI units: the given numbers).  Missing from the full property: the
fractional parts, whose loss is silent (`C154_motion_iff`, `C154_zero_motion_violated`). -/
theorem C154_motion_partial (σ τ : CStore K) (a : Nat) (d : Rec K) (ha : σ[a]? = some d) (hd : ∀ p ∈ d, ∃ z : ℤ, p.2 = z)
    (unit : MUnit) (ty : MType) (delta : Option K) (m : Motion K) (h : mkMotionT σ a true unit ty delta = (.ok m, τ)) :
    List.Forall₂ (fun p q => q.1 = p.1 ∧ CutOff (toSI unit p.2) q.2) d ((given m ty).read τ) := by
  rw [(mkMotionT_given σ τ a d ha true unit ty delta m h).1]
  exact toSICol_int unit d hd

/-- In units of centimetres an integer array gives the motion of the same real numbers exactly when all its values are
multiples of 100. -/
theorem C154_motion_iff (σ τ : CStore K) (a : Nat) (d : Rec K) (ha : σ[a]? = some d) (hd : ∀ p ∈ d, ∃ z : ℤ, p.2 = z)
    (unit : MUnit) (hu : unit = .cm ∨ unit = .cmps ∨ unit = .cmpss ∨ unit = .gal) (ty : MType) (delta : Option K) (m : Motion K)
    (h : mkMotionT σ a true unit ty delta = (.ok m, τ)) :
    (given m ty).read τ = d.map (fun p => (p.1, toSI unit p.2)) ↔ ∀ p ∈ d, ∃ k : ℤ, p.2 = 100 * k := by
  have hu' : ∀ v : K, toSI unit v = v / 100 := by rcases hu with rfl | rfl | rfl | rfl <;> intro v <;> rfl
  have hf := C154_motion_partial σ τ a d ha hd unit ty delta m h
  constructor
  · intro e p hp
    rw [e, List.forall₂_map_right_iff] at hf
    obtain ⟨_, ⟨z, hz⟩, _⟩ := (List.forall₂_same.1 hf) p hp
    rw [hu'] at hz
    exact ⟨z, by rw [← hz]; field_simp⟩
  · intro hk
    have h1 : List.Forall₂ (fun p q => q.1 = p.1 ∧ CutOff (toSI unit p.2) q.2) d (d.map fun p => (p.1, toSI unit p.2)) := by
      rw [List.forall₂_map_right_iff]
      refine List.forall₂_same.2 fun p hp => ⟨rfl, ?_⟩
      obtain ⟨k, hk⟩ := hk p hp
      rw [hu', hk]
      simp only
      rw [show (100 * (k : K)) / 100 = (k : K) by field_simp]
      exact cutOff_int k
    have : ∀ l l' l'' : Rec K, List.Forall₂ (fun p q => q.1 = p.1 ∧ CutOff (toSI unit p.2) q.2) l l' →
        List.Forall₂ (fun p q => q.1 = p.1 ∧ CutOff (toSI unit p.2) q.2) l l'' → l' = l'' := by
      intro l l' l'' q1
      induction q1 generalizing l'' with
      | nil => intro q2; cases q2; rfl
      | cons r1 _ ih =>
        intro q2
        cases q2 with
        | cons r2 r3 =>
          congr 1
          · exact Prod.ext (r1.1.trans r2.1.symm) (cutOff_unique r1.2 r2.2)
          · exact ih _ r3
    exact this _ _ _ hf h1

/-- C154 fails for every integer record with values below 100 gal: the constructed motion is at rest, with a peak ground
acceleration of 0, and no error or warning is given. -/
theorem C154_zero_motion_violated (σ τ : CStore K) (a : Nat) (d : Rec K) (ha : σ[a]? = some d) (unit : MUnit)
    (hu : unit = .cmpss ∨ unit = .gal) (hd : ∀ p ∈ d, ∃ z : ℤ, p.2 = z ∧ |z| < 100) (delta : Option K) (m : Motion K)
    (h : mkMotionT σ a true unit .accel delta = (.ok m, τ)) :
    m.accel.read τ = d.map (fun p => (p.1, 0)) ∧ m.pga = 0 := by
  have hu' : ∀ v : K, toSI unit v = v / 100 := by rcases hu with rfl | rfl <;> intro v <;> rfl
  have hf := C154_motion_partial σ τ a d ha (fun p hp => (hd p hp).imp fun z hz => hz.1) unit .accel delta m h
  have hz : ∀ l l' : Rec K, (∀ p ∈ l, ∃ z : ℤ, p.2 = z ∧ |z| < 100) →
      List.Forall₂ (fun p q => q.1 = p.1 ∧ CutOff (toSI unit p.2) q.2) l l' → l' = l.map fun p => (p.1, 0) := by
    intro l l' hl q
    induction q with
    | nil => rfl
    | @cons p q l l' r _ ih =>
      rw [List.map_cons, ih fun x hx => hl x (List.mem_cons_of_mem _ hx)]
      congr 1
      obtain ⟨z, e, hz⟩ := hl p (by simp)
      refine Prod.ext r.1 ?_
      have hc : CutOff (toSI unit p.2) 0 := by
        refine ⟨⟨0, by simp⟩, by simp, ?_, by simp⟩
        rw [hu', sub_zero, abs_div, e, abs_of_pos (by norm_num : (0 : K) < 100), div_lt_one (by norm_num)]
        exact_mod_cast hz
      exact cutOff_unique r.2 hc
  have e : m.accel.read τ = d.map (fun p => (p.1, 0)) := hz d _ hd hf
  refine ⟨e, ?_⟩
  rw [(mkMotionT_given σ τ a d ha true unit .accel delta m h).2, e]
  by_cases hne : d = []
  · subst hne; rfl
  obtain ⟨x, hx, e2⟩ := maxAbs_mem (l := Spec.vals (d.map fun p => (p.1, (0 : K)))) (by simpa [Spec.vals] using hne)
  rw [← e2]
  simp only [Spec.vals, List.map_map, List.mem_map, Function.comp] at hx
  obtain ⟨_, _, rfl⟩ := hx
  simp

/-- Saving an integer-valued motion: in m/s/s and in gal the file has the exact values, in g the values without their
fractional parts, and the object keeps these.  Missing: the fractional parts in g (`C154_save_violated`). -/
theorem C154_save_partial (d : Rec K) (hd : ∀ p ∈ d, ∃ z : ℤ, p.2 = z) :
    saveAccelT true d .mpss = d ∧ (∀ u, u = .gal ∨ u = .cmpss → saveAccelT true d u = d.map fun p => (p.1, p.2 * 100)) ∧
      List.Forall₂ (fun p q => q.1 = p.1 ∧ CutOff (p.2 / 9.81) q.2) d (saveAccelT true d .g) := by
  refine ⟨rfl, ?_, ?_⟩
  · intro u hu
    have : saveAccelT true d u = assignCol true (· * 100) d := by rcases hu with rfl | rfl <;> rfl
    rw [this, assignCol]
    apply List.map_congr_left
    intro p hp
    obtain ⟨z, hz⟩ := hd p hp
    have h1 := castTo_cut (p.2 * 100)
    have h2 : CutOff (p.2 * 100) (p.2 * 100) := by
      rw [hz, show (z : K) * 100 = ((z * 100 : ℤ) : K) by push_cast; ring]
      exact cutOff_int _
    rw [cutOff_unique h1 h2]
  · unfold saveAccelT assignCol
    simp only
    rw [List.forall₂_map_right_iff]
    refine List.forall₂_same.2 fun p _ => ⟨rfl, ?_⟩
    rw [show (9.81 : K) = 981 / 100 by norm_num]
    exact castTo_cut _

/-- C154 fails when saving in g: accelerations of less than 9.81 m/s/s, given as integers, are all written as 0. -/
theorem C154_save_violated (d : Rec K) (hd : ∀ p ∈ d, ∃ z : ℤ, p.2 = z ∧ |z| ≤ 9) :
    saveAccelT true d .g = d.map fun p => (p.1, 0) := by
  unfold saveAccelT assignCol
  apply List.map_congr_left
  intro p hp
  obtain ⟨z, hz, hb⟩ := hd p hp
  refine Prod.ext rfl (cutOff_unique (castTo_cut _) ⟨⟨0, by simp⟩, by simp, ?_, by simp⟩)
  have hb' : |(z : K)| ≤ 9 := by exact_mod_cast hb
  rw [sub_zero, hz, abs_div, abs_of_pos (by norm_num : (0 : K) < 981 / 100), div_lt_one (by norm_num)]
  linarith [show (9 : K) < 981 / 100 by norm_num]

/-- The other unit conversion, on a copy: exact in gal, TypeError in g for integer-valued motions, where the same motion
with real numbers is converted. -/
theorem C154_convert_violated (d : Rec K) :
    unitConvertT true d .g = .error .typeError ∧ unitConvertT false d .g = .ok (d.map fun p => (p.1, p.2 / 9.81)) ∧
      (∀ u, u = .gal ∨ u = .cmpss → ∀ b, unitConvertT b d u = .ok (d.map fun p => (p.1, p.2 * 100))) ∧
      ∀ b, unitConvertT b d .mpss = .ok d := by
  refine ⟨rfl, ?_, ?_, fun b => rfl⟩
  · simp only [unitConvertT, scaleCols, Bool.false_eq_true, if_false]
    congr 1
    apply List.map_congr_left
    intro p _
    refine Prod.ext (mul_one _) ?_
    simp only
    rw [show (9.81 : K) = 981 / 100 by norm_num, mul_one_div]
  · intro u hu b
    rcases hu with rfl | rfl <;> simp [unitConvertT, scaleCols]

/-- C154 fails for stress curves given as integers in Pa, MPa or GPa: TypeError, after the strain column of the caller
has been converted. -/
theorem C154_stress_curve_violated (σ : CStore K) (a : Nat) (d : Rec K) (ha : σ[a]? = some d) (u : StressUnit)
    (hu : u = .pa ∨ u = .mpa ∨ u = .gpa) (su : Unit1) (hsu : su ≠ .bad) (chk : Bool) (hpos : ∀ p ∈ d, 0 ≤ p.1 ∧ 0 ≤ p.2) :
    (mkCurveT σ a true (.stress u) su chk).1 = .error .typeError ∧
      ∃ w τ, mkCurveT σ a false (.stress u) su chk = (.ok w, τ) := by
  have hb : ∃ w σ', mkBase σ a su none chk = (.ok w, σ') := by
    unfold mkBase
    simp only [ha]
    rw [if_neg]
    · cases su with
      | bad => exact absurd rfl hsu
      | one => exact ⟨_, _, rfl⟩
      | pct => exact ⟨_, _, rfl⟩
    · rintro ⟨_, p, hp, h1 | h1⟩
      · exact absurd (hpos p hp).1 (not_le.2 h1)
      · exact absurd (hpos p hp).2 (not_le.2 h1)
  obtain ⟨w, σ', hb⟩ := hb
  unfold mkCurveT
  rw [hb]
  rcases hu with rfl | rfl | rfl
  all_goals exact ⟨by simp, by simp [finishCurve]⟩

/-- All other curves: the constructor does the same for integers and for real numbers. -/
theorem C154_curve (σ : CStore K) (a : Nat) (int : Bool) (kind : CurveKind) (su : Unit1) (chk : Bool)
    (hk : kind ≠ .stress .pa ∧ kind ≠ .stress .mpa ∧ kind ≠ .stress .gpa) :
    mkCurveT σ a int kind su chk = mkCurve σ a kind su none chk := by
  unfold mkCurveT mkCurve
  cases hb : mkBase σ a su none chk with
  | mk r σ' =>
    cases r with
    | error e => rfl
    | ok w => simp [hk.1, hk.2.1, hk.2.2]

/-- C154 fails for five-column profiles given as integers with damping in percent or density in g/cm^3: TypeError.  For
all other arguments, and for two columns, integers and real numbers give the same profile. -/
theorem C154_profile_violated (σ : Store K) (a : Nat) (rows : List (Row K)) (ha : σ[a]? = some (.five rows))
    (hck : checkVsFormat (.five rows : Cell K) = .ok ()) (du : DampUnit) (de : DensUnit) (hdu : du ≠ .bad) (hde : de ≠ .bad)
    (half : Bool) (f : Int) :
    (du = .pct ∨ de = .gcc → mkProfileT σ a true du de half f = .error .typeError) ∧
    (du = .one → de = .si → mkProfileT σ a true du de half f = mkProfile σ a du de half f) ∧
    mkProfileT σ a false du de half f = mkProfile σ a du de half f := by
  unfold mkProfileT
  simp only [ha, hck, hdu, hde, if_false]
  refine ⟨?_, ?_, by simp⟩
  · intro h
    rw [if_pos ⟨trivial, h.symm⟩]
  · rintro rfl rfl
    simp

/-- Two-column profiles. -/
theorem C154_two_columns (σ : Store K) (a : Nat) (rows : List (K × K)) (ha : σ[a]? = some (.two rows)) (int : Bool)
    (du : DampUnit) (de : DensUnit) (half : Bool) (f : Int) :
    mkProfileT σ a int du de half f = mkProfile σ a du de half f := by
  unfold mkProfileT
  simp only [ha]

/-! ### Vertical stress -/

theorem stressLoopT_float (g s hp rp : K) (l : List (K × K)) : stressLoopT false g s hp rp l = stressLoop g s hp rp l := by
  induction l generalizing s hp rp with
  | nil => rfl
  | cons q l ih => obtain ⟨h, r⟩ := q; simp [stressLoopT, stressLoop, castTo, ih]

/-- Real-valued thicknesses: the function of the other claims. -/
theorem vertStressT_float (h rho : List K) : vertStressT false h rho = vertStress h rho := by
  unfold vertStressT vertStress
  by_cases h1 : h = []
  · rw [if_pos h1, if_pos h1]
  rw [if_neg h1, if_neg h1]
  by_cases h2 : rho.length < h.length
  · rw [if_pos h2, if_pos h2]
  rw [if_neg h2, if_neg h2]
  cases fixLast h with
  | nil => rfl
  | cons h0 hs =>
    cases rho with
    | nil => rfl
    | cons r0 rs => simp [castTo, stressLoopT_float]

/-- A step of the loop with cut-off stays below the exact value and loses less than 1. -/
theorem castTo_below {x y c : K} (h0 : 0 ≤ y) (h1 : y ≤ x) (h2 : x ≤ y + c) :
    ∃ z : ℤ, castTo true y = z ∧ 0 ≤ (z : K) ∧ (z : K) ≤ x ∧ x < z + (c + 1) := by
  unfold castTo pyInt
  rw [if_pos rfl, if_pos h0]
  have a1 := Int.floor_le y
  have a2 := Int.lt_floor_add_one y
  exact ⟨_, rfl, by exact_mod_cast Int.floor_nonneg.2 h0, by linarith, by linarith⟩

theorem stressLoopT_bound (g : K) (hg : 0 ≤ g) (l : List (K × K)) : ∀ (s t hp rp c : K), 0 ≤ t → t ≤ s → s < t + c →
    0 ≤ hp → 0 ≤ rp → (∀ q ∈ l, 0 ≤ q.1 ∧ 0 ≤ q.2) → ∀ (i : Nat) (x y : K), (stressLoop g s hp rp l)[i]? = some x →
      (stressLoopT true g t hp rp l)[i]? = some y → ∃ z : ℤ, y = z ∧ (z : K) ≤ x ∧ x < z + (c + (i : K) + 1) := by
  induction l with
  | nil => intro s t hp rp c _ _ _ _ _ _ i x y hx; simp [stressLoop] at hx
  | cons q l ih =>
    obtain ⟨h, r⟩ := q
    intro s t hp rp c ht hts hc hhp hrp hl i x y hx hy
    obtain ⟨q1, q2⟩ := hl (h, r) (by simp)
    simp only at q1 q2
    have p1 : 0 ≤ rp * g * hp / 2 := by positivity
    have p2 : 0 ≤ r * g * h / 2 := by positivity
    obtain ⟨z, e, z0, z1, z2⟩ := castTo_below (x := s + rp * g * hp / 2 + r * g * h / 2)
      (y := t + rp * g * hp / 2 + r * g * h / 2) (c := c) (by linarith) (by linarith) (by linarith)
    rw [stressLoop] at hx
    rw [stressLoopT, e] at hy
    cases i with
    | zero =>
      simp only [List.getElem?_cons_zero, Option.some.injEq] at hx hy
      subst hx; subst hy
      exact ⟨z, rfl, z1, by simpa using z2⟩
    | succ i =>
      rw [List.getElem?_cons_succ] at hx hy
      obtain ⟨w, w1, w2, w3⟩ := ih _ _ h r (c + 1) z0 z1 z2 q1 q2 (fun q hq => hl q (List.mem_cons_of_mem _ hq)) i x y hx hy
      refine ⟨w, w1, w2, ?_⟩
      push_cast
      linarith

/-- Vertical stress for integer thicknesses: whole Pascals, at most the exact stress, which exceeds it by less than
`i + 1` Pa in layer `i` (counted from 0).  Missing from the full property: equality (`C154_stress_violated`). -/
theorem C154_stress_partial (h rho : List K) (hne : h ≠ []) (hlen : rho.length = h.length) (hh : ∀ x ∈ h, 0 < x)
    (hr : ∀ x ∈ rho, 0 < x) :
    ∃ s, vertStressT true h rho = .ok (s, h) ∧ s.length = h.length ∧ ∀ i, i < h.length →
      ∃ z : ℤ, s[i]? = some (z : K) ∧ (z : K) ≤ 9.81 * massAbove h rho i ∧ 9.81 * massAbove h rho i < z + ((i : K) + 1) := by
  have hlast : h.getLast? ≠ some 0 := by
    intro e
    exact lt_irrefl _ (hh 0 (List.mem_of_getLast? e))
  obtain ⟨s, h1, h2, h3⟩ := C45_overburden h rho hne hlen hlast
  have hfix : fixLast h = h := by rw [fixLast, if_neg hlast]
  rw [show (9.81 : K) = 981 / 100 by norm_num]
  unfold vertStressT
  unfold vertStress at h1
  rw [if_neg hne, if_neg (by omega), hfix] at h1 ⊢
  cases h with
  | nil => exact absurd rfl hne
  | cons h0 hs =>
    cases rho with
    | nil => simp at hlen
    | cons r0 rs =>
      simp only [Except.ok.injEq, Prod.mk.injEq, and_true] at h1
      subst h1
      have a0 : 0 < h0 := hh h0 (by simp)
      have b0 : 0 < r0 := hr r0 (by simp)
      obtain ⟨z, e, z0, z1, z2⟩ := castTo_below (x := r0 * (981 / 100) * h0 / 2) (y := r0 * (981 / 100) * h0 / 2) (c := 0)
        (by positivity) le_rfl (by simp)
      have hl : rs.length = hs.length := by simpa using hlen
      have lT : ∀ (t hp rp : K) (l : List (K × K)), (stressLoopT true (981 / 100) t hp rp l).length = l.length := by
        intro t hp rp l
        induction l generalizing t hp rp with
        | nil => rfl
        | cons q l ih => obtain ⟨h, r⟩ := q; simp [stressLoopT, ih]
      refine ⟨_, rfl, by simp [lT, hl], ?_⟩
      intro i hi
      have hx := h3 i hi
      cases i with
      | zero =>
        simp only [List.getElem?_cons_zero, Option.some.injEq] at hx
        refine ⟨z, by simp [e], ?_, ?_⟩
        · rw [← hx]; exact z1
        · rw [← hx]; simpa using z2
      | succ i =>
        rw [List.getElem?_cons_succ] at hx
        have hi' : i < (stressLoopT true (981 / 100) (castTo true (r0 * (981 / 100) * h0 / 2)) h0 r0 (hs.zip rs)).length := by
          rw [lT]; simpa [hl] using hi
        have hy := List.getElem?_eq_getElem hi'
        obtain ⟨w, w1, w2, w3⟩ := stressLoopT_bound (981 / 100 : K) (by norm_num) (hs.zip rs) (r0 * (981 / 100) * h0 / 2)
          (castTo true (r0 * (981 / 100) * h0 / 2)) h0 r0 1 (by rw [e]; exact z0) (by rw [e]; exact z1) (by rw [e]; linarith)
          a0.le b0.le
          (fun q hq => ⟨(hh _ (List.mem_cons_of_mem _ (List.of_mem_zip (show (q.1, q.2) ∈ _ from hq)).1)).le,
            (hr _ (List.mem_cons_of_mem _ (List.of_mem_zip (show (q.1, q.2) ∈ _ from hq)).2)).le⟩) i _ _ hx hy
        refine ⟨w, ?_, w2, ?_⟩
        · rw [List.getElem?_cons_succ, hy, w1]
        · push_cast; linarith

/-- C154 fails for the vertical stress: a layer of 1 m with a density of 1001 kg/m^3 has a stress of 4909.905 Pa at its
middle, and 4909 Pa if its thickness is given as an integer. -/
theorem C154_stress_violated :
    vertStressT true [(1 : ℚ), 1] [1001, 1999] = .ok ([4909, 19624], [1, 1]) ∧
      vertStressT false [(1 : ℚ), 1] [1001, 1999] = .ok ([981981 / 200, 3924981 / 200], [1, 1]) := by
  decide +kernel

end C154

/-- A record of 250 gal and 99 gal given as integers: 2 m/s/s and 0 instead of 2.5 and 0.99. -/
example : ∃ m τ, mkMotionT [[((0 : ℚ), 250), (1, 99)]] 0 true .gal .accel none = (.ok m, τ) ∧
    m.accel.read τ = [(0, 2), (1, 0)] ∧ m.pga = 2 :=
  ⟨⟨.view 0, .own [(0, 2), (1, 2)], .own [(0, 2), (1, 4)], 1, 2, 2, 2, 4⟩, [[(0, 2), (1, 0)]],
    by decide +kernel, by decide +kernel, by decide +kernel⟩

end Verif
