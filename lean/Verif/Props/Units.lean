import Verif.Props.Transfer
import Verif.Props.ProfileGeometry

/-!
C192: quantities derived from a profile do not depend on the units of length, time and density.
-/

set_option linter.unusedSectionVars false
set_option linter.unusedVariables false

open Complex

namespace Verif

open Spec

/-! ## Geometry -/

section Geometry
variable {K : Type} [_root_.Field K] [LinearOrder K] [IsStrictOrderedRing K]

/-- A profile of (thickness, velocity) with the numbers it has when lengths are measured in a unit `1/c` as long and velocities in a unit
`1/s` as large. -/
def Spec.inUnits {K : Type} [_root_.Field K] (c s : K) (p : List (K × K)) : List (K × K) := p.map fun r => (c * r.1, s * r.2)

theorem cumulSl_units (c s : K) (hc : 0 < c) (hs : 0 < s) (Z : K) (p : List (K × K)) (d acc : K) :
    cumulSl (c * Z) (c * d) (c / s * acc) (inUnits c s p) = c / s * cumulSl Z d acc p := by
  induction p generalizing d acc with
  | nil => rfl
  | cons r p ih =>
    obtain ⟨t, v⟩ := r
    have e : ∀ x : K, 1 / (s * v) * (c * x) = c / s * (1 / v * x) := fun x => by
      rcases eq_or_ne v 0 with rfl | hv
      · simp
      · field_simp
    simp only [inUnits, List.map_cons, cumulSl]
    have h1 : c * d + c * t < c * Z ↔ d + t < Z := by rw [← mul_add, mul_lt_mul_iff_right₀ hc]
    by_cases h : d + t < Z
    · rw [if_pos (h1.2 h), if_pos h, ← mul_add, e, ← mul_add]
      exact ih (d + t) _
    · rw [if_neg (h1.not.2 h), if_neg h, show c * t - (c * d + c * t - c * Z) = c * (t - (d + t - Z)) by ring, e]
      ring

theorem sum_units (c s : K) (p : List (K × K)) : ((inUnits c s p).map Prod.fst).sum = c * (p.map Prod.fst).sum := by
  induction p with
  | nil => simp [inUnits]
  | cons r p ih => simp only [inUnits, List.map_cons, List.sum_cons] at ih ⊢; rw [ih]; ring

/-- C192: the mean velocity of the top `Z` of a profile is the same velocity in all units of length and time. -/
theorem C192_VsZ (c s : K) (hc : 0 < c) (hs : 0 < s) (p : List (K × K)) (Z : K) (opt : Int) :
    calcVsZ (inUnits c s p) (c * Z) opt = (calcVsZ p Z opt).map (s * ·) := by
  have h0 := cumulSl_units c s hc hs Z p 0 0
  simp only [mul_zero] at h0
  have hcs : c / s ≠ 0 := div_ne_zero hc.ne' hs.ne'
  have hlt : c * (p.map Prod.fst).sum < c * Z ↔ (p.map Prod.fst).sum < Z := mul_lt_mul_iff_right₀ hc
  have hz : ∀ x : K, c / s * x = 0 ↔ x = 0 := fun x => by rw [mul_eq_zero]; simp [hcs]
  have hq : ∀ a b : K, c * a / (c / s * b) = s * (a / b) := fun a b => by
    rcases eq_or_ne b 0 with rfl | hb
    · simp
    · have := hc.ne'; have := hs.ne'; field_simp
  unfold calcVsZ
  simp only [sum_units, h0]
  split_ifs with h1 h2 h3 <;> simp_all [Except.map]
  · cases hl : p.getLast? with
    | none => simp [inUnits, hl]
    | some r =>
      obtain ⟨t, v⟩ := r
      simp only [inUnits, List.getLast?_map, hl, Option.map_some]
      have e : c / s * cumulSl Z 0 0 p + (s * v)⁻¹ * (c * Z - c * (p.map Prod.fst).sum) = c / s * (cumulSl Z 0 0 p + v⁻¹ * (Z - (p.map Prod.fst).sum)) := by
        rcases eq_or_ne v 0 with rfl | hv
        · simp
        · have := hs.ne'; field_simp
      rw [e]
      by_cases h4 : cumulSl Z 0 0 p + v⁻¹ * (Z - (p.map Prod.fst).sum) = 0
      · rw [if_pos (by rw [h4, mul_zero]), if_pos h4]
      · rw [if_neg (mul_ne_zero (div_ne_zero hc.ne' hs.ne') h4), if_neg h4, hq]
  · rw [← hq, mul_min_of_nonneg _ _ hc.le]

theorem zTop_units (c : K) (z : K) (l : List K) : zTop (c * z) (l.map (c * ·)) = (zTop z l).map (c * ·) := by
  induction l generalizing z with
  | nil => rfl
  | cons t l ih => simp only [List.map_cons, zTop]; rw [← mul_add, ih]

/-- C192: the depth at which a velocity is reached is the same depth in all units. -/
theorem C192_basin_depth (c s : K) (hc : 0 < c) (hs : 0 < s) (p : List (K × K)) (b : K) :
    calcBasinDepth (inUnits c s p) (s * b) = (calcBasinDepth p b).map (c * ·) := by
  have hf : (inUnits c s p).map Prod.fst = (p.map Prod.fst).map (c * ·) := by simp [inUnits, Function.comp_def]
  have hsnd : (inUnits c s p).map Prod.snd = (p.map Prod.snd).map (s * ·) := by simp [inUnits, Function.comp_def]
  have hl : ∀ (tot : K) (q : List (K × K)), basinLoop (s * b) (c * tot) (q.map fun r => (c * r.1, s * r.2)) = c * basinLoop b tot q := by
    intro tot q
    induction q with
    | nil => rfl
    | cons r q ih =>
      obtain ⟨z, v⟩ := r
      simp only [List.map_cons, basinLoop, ih]
      have : s * b ≤ s * v ↔ b ≤ v := mul_le_mul_iff_right₀ hs
      by_cases h : b ≤ v
      · rw [if_pos (this.2 h), if_pos h]
      · rw [if_neg (this.not.2 h), if_neg h]
  unfold calcBasinDepth
  rw [sum_units, hsnd, hf]
  unfold thk2dep
  by_cases hp : p = []
  · subst hp; simp [Except.map]
  · have hz := zTop_units c 0 (p.map Prod.fst)
    rw [mul_zero] at hz
    simp only [List.map_eq_nil_iff, hp, if_false, hz, bind, Except.bind, pure, Except.pure, Except.map, Bool.false_eq_true]
    rw [List.zip_map]
    exact congrArg _ (hl _ _)

end Geometry

/-! ## Wave propagation -/

/-- A layer with the numbers it has in other units: lengths times `c`, frequencies times `s`, densities times `d`. -/
def Spec.layUnits (c s d : ℝ) (l : Lay) : Lay := ⟨c * l.h, c * s * l.vs, l.xi, d * l.rho⟩

theorem vsStar_units (c s d : ℝ) (l : Lay) : vsStar (layUnits c s d l) = ((c * s : ℝ) : ℂ) * vsStar l := by
  unfold vsStar layUnits; push_cast; ring

theorem kStar_units (c s d w : ℝ) (hc : c ≠ 0) (hs : s ≠ 0) (l : Lay) :
    kStar (s * w) (layUnits c s d l) * ((layUnits c s d l).h : ℂ) = kStar w l * l.h := by
  unfold kStar
  rw [vsStar_units]
  have h1 : (c : ℂ) ≠ 0 := by exact_mod_cast hc
  have h2 : (s : ℂ) ≠ 0 := by exact_mod_cast hs
  show _ * ((c * l.h : ℝ) : ℂ) = _
  push_cast
  rcases eq_or_ne (vsStar l) 0 with h | h
  · rw [h]; simp
  · field_simp

theorem alphaStar_units (c s d : ℝ) (hc : c ≠ 0) (hs : s ≠ 0) (hd : d ≠ 0) (l m : Lay) :
    alphaStar (layUnits c s d l) (layUnits c s d m) = alphaStar l m := by
  unfold alphaStar
  rw [vsStar_units, vsStar_units]
  have h0 : (((d * (c * s)) : ℝ) : ℂ) ≠ 0 := by exact_mod_cast mul_ne_zero hd (mul_ne_zero hc hs)
  have e : ∀ x : Lay, ((layUnits c s d x).rho : ℂ) * (((c * s : ℝ) : ℂ) * vsStar x) = ((d * (c * s) : ℝ) : ℂ) * ((x.rho : ℂ) * vsStar x) := fun x => by
    show ((d * x.rho : ℝ) : ℂ) * _ = _
    push_cast; ring
  rw [e, e, mul_div_mul_left _ _ h0]

theorem dMat_units (c s d w : ℝ) (hc : c ≠ 0) (hs : s ≠ 0) (hd : d ≠ 0) (l m : Lay) :
    dMat (s * w) (layUnits c s d l) (layUnits c s d m) = dMat w l m := by
  have hk := kStar_units c s d w hc hs l
  unfold dMat
  rw [alphaStar_units c s d hc hs hd]
  have e1 : I * kStar (s * w) (layUnits c s d l) * ((layUnits c s d l).h : ℂ) = I * kStar w l * l.h := by rw [mul_assoc, hk, mul_assoc]
  have e2 : -I * kStar (s * w) (layUnits c s d l) * ((layUnits c s d l).h : ℂ) = -I * kStar w l * l.h := by rw [mul_assoc, hk, mul_assoc]
  rw [e1, e2]

/-- C192: the transfer functions of a profile at a frequency do not depend on the units of length, time and density. -/
theorem C192_transfer (c s d w : ℝ) (hc : 0 < c) (hs : 0 < s) (hd : 0 < d) (ls : List Lay) :
    tfRo (s * w) (ls.map (layUnits c s d)) = tfRo w ls ∧ tfIn (s * w) (ls.map (layUnits c s d)) = tfIn w ls ∧
    tfBh (s * w) (ls.map (layUnits c s d)) = tfBh w ls := by
  have h : eMat (s * w) (ls.map (layUnits c s d)) = eMat w ls := by
    unfold eMat dMats
    congr 2
    rw [← List.map_tail, List.zipWith_map]
    congr 1
    funext l m
    exact dMat_units c s d w hc.ne' hs.ne' hd.ne' l m
  unfold tfRo tfIn tfBh
  rw [h]
  exact ⟨rfl, rfl, rfl⟩

theorem tfFreqs_units (s df fmax : ℝ) (hs : 0 < s) : tfFreqs (s * df) (s * fmax) = (tfFreqs df fmax).map (s * ·) := by
  unfold tfFreqs linspace
  rw [mul_div_mul_left _ _ hs.ne', List.map_map]
  refine List.map_congr_left fun i _ => ?_
  show _ = s * _
  ring

/-- C192: the table of transfer functions in other units is the same table with the frequencies in the new unit. -/
theorem C192_table (c s d df fmax : ℝ) (hc : 0 < c) (hs : 0 < s) (hd : 0 < d) (ls : List Lay) :
    linearTf (ls.map (layUnits c s d)) (s * df) (s * fmax) = (linearTf ls df fmax).map fun r => (s * r.1, r.2) := by
  unfold linearTf
  rw [tfFreqs_units s df fmax hs, List.map_map, List.map_map]
  refine List.map_congr_left fun f _ => ?_
  obtain ⟨h1, h2, h3⟩ := C192_transfer c s d (2 * Real.pi * f) hc hs hd ls
  simp only [Function.comp]
  rw [show 2 * Real.pi * (s * f) = s * (2 * Real.pi * f) by ring, h1, h2, h3]

theorem abScan_units (c s d w : ℝ) (hc : c ≠ 0) (hs : s ≠ 0) (q : List (Lay × ℂ)) (hq : ∀ x ∈ q, 0 < x.1.vs ∧ 0 < x.1.rho) (hcp : 0 < c * s) (hd : 0 < d)
    (p : ℂ × ℂ) :
    abScan (s * w) p (q.map fun x => (toG (layUnits c s d x.1), x.2)) = abScan w p (q.map fun x => (toG x.1, x.2)) := by
  induction q generalizing p with
  | nil => rfl
  | cons x q ih =>
    obtain ⟨l, al⟩ := x
    obtain ⟨hv, hr⟩ := hq (l, al) (by simp)
    have hv' : 0 < (layUnits c s d l).vs := mul_pos hcp hv
    have hr' : 0 < (layUnits c s d l).rho := mul_pos hd hr
    simp only [List.map_cons, abScan]
    have e : abNext (s * w) (toG (layUnits c s d l)) al p = abNext w (toG l) al p := by
      have hk := kStar_units c s d w hc hs l
      unfold abNext
      rw [kStarG_toG hv' hr', kStarG_toG hv hr]
      have e1 : I * kStar (s * w) (layUnits c s d l) * ((toG (layUnits c s d l)).h : ℂ) = I * kStar w l * ((toG l).h : ℂ) := by
        show I * _ * ((layUnits c s d l).h : ℂ) = I * _ * (l.h : ℂ)
        rw [mul_assoc, hk, mul_assoc]
      have e2 : -I * kStar (s * w) (layUnits c s d l) * ((toG (layUnits c s d l)).h : ℂ) = -I * kStar w l * ((toG l).h : ℂ) := by
        show -I * _ * ((layUnits c s d l).h : ℂ) = -I * _ * (l.h : ℂ)
        rw [mul_assoc, hk, mul_assoc]
      rw [e1, e2]
    rw [e, ih fun x hx => hq x (by simp [hx])]

/-- C192: the same for all layers, with both kinds of boundary. -/
theorem C192_every_layer (c s d w : ℝ) (hc : 0 < c) (hs : 0 < s) (hd : 0 < d) (b : Boundary) (ls : List Lay)
    (hp : ∀ l ∈ ls, 0 < l.vs ∧ 0 < l.rho) :
    hRow b (s * w) ((ls.map (layUnits c s d)).map toG) = hRow b w (ls.map toG) := by
  have hpu : ∀ l ∈ ls, 0 < (layUnits c s d l).vs ∧ 0 < (layUnits c s d l).rho := fun l hl =>
    ⟨mul_pos (mul_pos hc hs) (hp l hl).1, mul_pos hd (hp l hl).2⟩
  have hal : List.zipWith alphaG ((ls.map (layUnits c s d)).map toG) ((ls.map (layUnits c s d)).map toG).tail
      = List.zipWith alphaG (ls.map toG) (ls.map toG).tail := by
    rw [← List.map_tail, ← List.map_tail, ← List.map_tail, List.zipWith_map, List.zipWith_map, List.zipWith_map]
    refine List.ext_getElem (by simp) fun i h1 h2 => ?_
    simp only [List.getElem_zipWith]
    rw [List.length_zipWith] at h1
    have i1 : ls[i] ∈ ls := List.getElem_mem _
    have i2 : ls.tail[i] ∈ ls := List.mem_of_mem_tail (List.getElem_mem _)
    rw [alphaG_toG (hpu _ i1).1 (hpu _ i1).2 (hpu _ i2).1 (hpu _ i2).2, alphaG_toG (hp _ i1).1 (hp _ i1).2 (hp _ i2).1 (hp _ i2).2,
      alphaStar_units c s d hc.ne' hs.ne' hd.ne']
  have ha : alphasG b ((ls.map (layUnits c s d)).map toG) = alphasG b (ls.map toG) := by
    unfold alphasG
    rw [hal]
  unfold hRow
  rw [ha]
  cases alphasG b (ls.map toG) with
  | error e => rfl
  | ok al =>
    have z1 : ((ls.map (layUnits c s d)).map toG).zip al = (ls.zip al).map fun x => (toG (layUnits c s d x.1), x.2) := by
      rw [List.map_map, List.zip_map_left]; rfl
    have z2 : (ls.map toG).zip al = (ls.zip al).map fun x => (toG x.1, x.2) := by
      rw [List.zip_map_left]; rfl
    have hs' := abScan_units c s d w hc.ne' hs.ne' (ls.zip al) (fun x hx => hp _ (List.of_mem_zip hx).1) (mul_pos hc hs) hd (1, 1)
    simp only [z1, z2, hs']

/-- 33 feet of soil of 656 feet per second on rock: lengths in feet (about 3.28 to the metre), densities in g/cm³. -/
example (w : ℝ) : tfRo w [⟨3.28 * 10, 3.28 * 1 * 200, 1 / 20, 1 / 1000 * 1800⟩, ⟨3.28 * 0, 3.28 * 1 * 1000, 1 / 100, 1 / 1000 * 2400⟩] = tfRo w demoLays := by
  have := (C192_transfer 3.28 1 (1 / 1000) w (by norm_num) (by norm_num) (by norm_num) demoLays).1
  rw [one_mul] at this
  exact this

example : calcVsZ [((10 : ℚ), 200), (20, 400)] 30 1 = .ok 300 ∧ calcVsZ [((10000 : ℚ), 1 / 5), (20000, 2 / 5)] 30000 1 = .ok (3 / 10) := by
  decide +kernel

end Verif
