import Verif.Proof.EveryLayer
import Mathlib.Topology.List
import Mathlib.Topology.Algebra.Ring.Basic
import Mathlib.Topology.Order.Lattice
import Mathlib.Analysis.Complex.Basic
import Mathlib.Tactic.FunProp

/-!
Continuity of the list operations of the every-layer solvers.  Two lists are near each other if they have the same length and
their entries are near each other (`tendsto_list`).
-/

set_option linter.unusedSectionVars false
set_option linter.unusedVariables false

open Filter Topology

namespace Verif

section
variable {X E : Type} [TopologicalSpace X] [TopologicalSpace E]

theorem cont_length : Continuous fun l : List E => l.length := continuous_iff_continuousAt.2 List.continuousAt_length

theorem cont_getD (d : E) : ∀ k : ℕ, Continuous fun l : List E => l.getD k d := by
  intro k
  induction k with
  | zero =>
    refine continuous_iff_continuousAt.2 fun l => ?_
    cases l with
    | nil => rw [ContinuousAt, nhds_nil]; exact tendsto_pure_nhds _ _
    | cons a l =>
      rw [ContinuousAt, List.tendsto_cons_iff]
      simpa using tendsto_fst
  | succ k ih =>
    refine continuous_iff_continuousAt.2 fun l => ?_
    cases l with
    | nil => rw [ContinuousAt, nhds_nil]; exact tendsto_pure_nhds _ _
    | cons a l =>
      rw [ContinuousAt, List.tendsto_cons_iff]
      have := (ih.tendsto l).comp (tendsto_snd (f := 𝓝 a) (g := 𝓝 l))
      simpa [Function.comp_def] using this

/-- Convergence of lists is convergence of length and entries. -/
theorem tendsto_list {ι : Type} {f : Filter ι} (d : E) : ∀ (L : List E) (F : ι → List E),
    Tendsto F f (𝓝 L) ↔ (∀ᶠ i in f, (F i).length = L.length) ∧ ∀ k < L.length, Tendsto (fun i => (F i).getD k d) f (𝓝 (L.getD k d)) := by
  intro L F
  constructor
  · intro h
    refine ⟨?_, fun k _ => ((cont_getD d k).tendsto L).comp h⟩
    have := (cont_length.tendsto L).comp h
    rw [nhds_discrete, tendsto_pure] at this
    exact this
  · induction L generalizing F with
    | nil =>
      rintro ⟨h, -⟩
      refine tendsto_const_nhds.congr' ?_
      filter_upwards [h] with i hi
      exact (List.eq_nil_of_length_eq_zero hi).symm
    | cons a L ih =>
      rintro ⟨h, hk⟩
      have h1 : Tendsto (fun i => (F i).tail) f (𝓝 L) := by
        apply ih
        constructor
        · filter_upwards [h] with i hi
          simp [hi]
        · intro k hkl
          have := hk (k + 1) (by simpa using hkl)
          simp only [List.getD_cons_succ] at this
          refine this.congr fun i => ?_
          cases F i <;> simp
      have h0 : Tendsto (fun i => (F i).getD 0 d) f (𝓝 a) := by simpa using hk 0 (by simp)
      refine (h0.cons h1).congr' ?_
      filter_upwards [h] with i hi
      cases e : F i with
      | nil => rw [e] at hi; simp at hi
      | cons b l => simp

theorem cont_list {F : X → List E} (d : E) (hl : Continuous fun x => (F x).length) (he : ∀ k, Continuous fun x => (F x).getD k d) :
    Continuous F := by
  refine continuous_iff_continuousAt.2 fun x => (tendsto_list d _ _).2 ⟨?_, fun k _ => (he k).tendsto x⟩
  have := hl.tendsto x
  rw [nhds_discrete ℕ, tendsto_pure] at this
  exact this

/-- Dependence on a length. -/
theorem cont_len {len : X → ℕ} (hl : Continuous len) {G : ℕ → X → E} (h : ∀ n, Continuous (G n)) : Continuous fun x => G (len x) x := by
  refine continuous_iff_continuousAt.2 fun x => ((h (len x)).tendsto x).congr' ?_
  have := hl.tendsto x
  rw [nhds_discrete ℕ, tendsto_pure] at this
  filter_upwards [this] with y hy
  rw [hy]

theorem cont_nat {f : ℕ → ℕ} {len : X → ℕ} (hl : Continuous len) : Continuous fun x => f (len x) :=
  continuous_of_discreteTopology.comp hl

theorem cont_ite {len : X → ℕ} (hl : Continuous len) (p : ℕ → Prop) [DecidablePred p] {g h : X → E} (hg : Continuous g) (hh : Continuous h) :
    Continuous fun x => if p (len x) then g x else h x :=
  cont_len (G := fun n x => if p n then g x else h x) hl fun n => by by_cases hp : p n <;> simp [hp, hg, hh]

variable {A B : Type} [TopologicalSpace A] [TopologicalSpace B]

theorem getD_map_ite (g : A → E) (a : A) (d : E) (l : List A) (k : ℕ) : (l.map g).getD k d = if k < l.length then g (l.getD k a) else d := by
  split_ifs with h
  · rw [List.getD_eq_getElem _ _ (by simpa using h), List.getD_eq_getElem _ _ h]; simp
  · rw [List.getD_eq_default _ _ (by simpa using h)]

theorem cont_map [Inhabited A] {g : A → E} (hg : Continuous g) : Continuous fun l : List A => l.map g := by
  rcases isEmpty_or_nonempty E with hE | ⟨⟨d⟩⟩
  · exact (hE.false (g default)).elim
  refine cont_list d (by simpa using cont_length) fun k => ?_
  simp only [getD_map_ite g default d]
  exact cont_ite cont_length (fun n => k < n) (hg.comp (cont_getD _ k)) continuous_const

/-- A table with a length that may vary and continuous entries. -/
theorem cont_range {len : X → ℕ} (hl : Continuous len) {G : ℕ → X → E} (d : E) (h : ∀ k, Continuous (G k)) :
    Continuous fun x => (List.range (len x)).map fun k => G k x := by
  refine cont_list d (by simpa using hl) fun k => ?_
  have : ∀ x, ((List.range (len x)).map fun k => G k x).getD k d = if k < len x then G k x else d := by
    intro x
    split_ifs with hk
    · rw [List.getD_eq_getElem _ _ (by simpa using hk)]; simp
    · rw [List.getD_eq_default _ _ (by simpa using hk)]
  simp only [this]
  exact cont_ite hl (fun n => k < n) (h k) continuous_const

theorem cont_zipWith [Inhabited A] [Inhabited B] {g : A → B → E} (hg : Continuous fun p : A × B => g p.1 p.2) :
    Continuous fun p : List A × List B => List.zipWith g p.1 p.2 := by
  refine cont_list (g default default) ?_ fun k => ?_
  · simp only [List.length_zipWith]
    exact (cont_length.comp continuous_fst).min (cont_length.comp continuous_snd)
  · have : ∀ p : List A × List B, (List.zipWith g p.1 p.2).getD k (g default default)
        = if k < min p.1.length p.2.length then g (p.1.getD k default) (p.2.getD k default) else g default default := by
      intro p
      split_ifs with h
      · rw [lt_min_iff] at h
        rw [List.getD_eq_getElem _ _ (by simpa using h), List.getD_eq_getElem _ _ h.1, List.getD_eq_getElem _ _ h.2]; simp
      · rw [List.getD_eq_default _ _ (by rw [List.length_zipWith]; exact not_lt.1 h)]
    simp only [this]
    refine cont_ite (len := fun p : List A × List B => min p.1.length p.2.length)
      ((cont_length.comp continuous_fst).min (cont_length.comp continuous_snd)) (fun n => k < n) ?_ continuous_const
    exact hg.comp (((cont_getD _ k).comp continuous_fst).prodMk ((cont_getD _ k).comp continuous_snd))

theorem cont_append [Inhabited E] : Continuous fun p : List E × List E => p.1 ++ p.2 := by
  refine cont_list default ?_ fun k => ?_
  · simp only [List.length_append]
    exact (cont_length.comp continuous_fst).add (cont_length.comp continuous_snd)
  · have : ∀ p : List E × List E, (p.1 ++ p.2).getD k default
        = (fun (n : ℕ) (p : List E × List E) => if k < n then p.1.getD k default else p.2.getD (k - n) default) p.1.length p := by
      intro p
      simp only
      split_ifs with h
      · exact List.getD_append _ _ _ _ h
      · exact List.getD_append_right _ _ _ _ (not_lt.1 h)
    simp only [this]
    refine cont_len (G := fun (n : ℕ) (p : List E × List E) => if k < n then p.1.getD k default else p.2.getD (k - n) default) (cont_length.comp continuous_fst) fun n => ?_
    by_cases h : k < n
    · simp only [h, if_true]; exact (cont_getD _ k).comp continuous_fst
    · simp only [h, if_false]; exact (cont_getD _ _).comp continuous_snd

theorem cont_take [Inhabited E] (m : ℕ) : Continuous fun l : List E => l.take m := by
  refine cont_list default ?_ fun k => ?_
  · simp only [List.length_take]; exact continuous_const.min cont_length
  · by_cases h : k < m
    · refine (cont_getD default k).congr fun l => ?_
      rw [List.getD_eq_getElem?_getD, List.getD_eq_getElem?_getD, List.getElem?_take_of_lt h]
    · refine (continuous_const (y := default)).congr fun l => ?_
      rw [List.getD_eq_default _ _ (by simp; omega)]

theorem cont_drop [Inhabited E] (m : ℕ) : Continuous fun l : List E => l.drop m := by
  refine cont_list default ?_ fun k => ?_
  · simp only [List.length_drop]; exact cont_nat (f := fun n => n - m) cont_length
  · refine (cont_getD default (m + k)).congr fun l => ?_
    rw [List.getD_eq_getElem?_getD, List.getD_eq_getElem?_getD, List.getElem?_drop]

theorem cont_dropLast [Inhabited E] : Continuous fun l : List E => l.dropLast := by
  simp only [List.dropLast_eq_take]
  exact cont_len (G := fun n (l : List E) => l.take (n - 1)) cont_length fun n => cont_take _

theorem cont_reverse [Inhabited E] : Continuous fun l : List E => l.reverse := by
  refine cont_list default (by simpa using cont_length) fun k => ?_
  have : ∀ l : List E, l.reverse.getD k default = (fun (n : ℕ) (l : List E) => if k < n then l.getD (n - 1 - k) default else default) l.length l := by
    intro l
    simp only
    split_ifs with h
    · rw [List.getD_eq_getElem _ _ (by simpa using h), List.getD_eq_getElem _ _ (by omega)]; simp
    · rw [List.getD_eq_default _ _ (by simpa using h)]
  simp only [this]
  refine cont_len (G := fun n l => if k < n then l.getD (n - 1 - k) default else default) cont_length fun n => ?_
  by_cases h : k < n
  · simp only [h, if_true]; exact cont_getD _ _
  · simp only [h, if_false]; exact continuous_const

end

/-! ## The operations of the solver -/

theorem cont_fftL : Continuous fftL := by
  unfold fftL
  refine cont_len (G := fun n (a : List ℂ) => (List.range n).map fun k : ℕ => ∑ j ∈ Finset.range n, a.getD j 0 * Complex.exp (-(2 * Real.pi * Complex.I * j * k / n)))
    cont_length fun n => ?_
  refine cont_range continuous_const 0 fun k => continuous_finsetSum _ fun j _ => (cont_getD 0 j).mul continuous_const

theorem cont_ifftL : Continuous ifftL := by
  unfold ifftL
  refine cont_len (G := fun n (a : List ℂ) => (List.range n).map fun k : ℕ => (∑ j ∈ Finset.range n, a.getD j 0 * Complex.exp (2 * Real.pi * Complex.I * j * k / n)) / n)
    cont_length fun n => ?_
  refine cont_range continuous_const 0 fun k => (continuous_finsetSum _ fun j _ => (cont_getD 0 j).mul continuous_const).div_const _

theorem cont_realFirst : Continuous realFirst := by
  have : realFirst = fun l => (l.take 1).map (fun z => ((z.re : ℝ) : ℂ)) ++ l.drop 1 := by
    funext l
    cases l <;> simp [realFirst]
  rw [this]
  exact cont_append.comp (((cont_map (Complex.continuous_ofReal.comp Complex.continuous_re)).comp (cont_take 1)).prodMk (cont_drop 1))

theorem cont_subsample {E : Type} [TopologicalSpace E] [Inhabited E] (k : ℕ) (hk : 0 < k) : Continuous fun l : List E => subsample k l := by
  have : ∀ l : List E, subsample k l = (List.range ((l.length + (k - 1)) / k)).map fun i => l.getD (i * k) default := by
    intro l
    unfold subsample
    have e : ∀ L : List ℕ, (∀ i ∈ L, i * k < l.length) → L.filterMap (fun i => l[i * k]?) = L.map fun i => l.getD (i * k) default := by
      intro L hL
      induction L with
      | nil => rfl
      | cons a L ih =>
        have ha := hL a (by simp)
        rw [List.filterMap_cons, List.getElem?_eq_getElem ha, List.map_cons, List.getD_eq_getElem _ _ ha, ih fun i hi => hL i (by simp [hi])]
    apply e
    intro i hi
    have hi := List.mem_range.1 hi
    have : (i + 1) * k ≤ l.length + (k - 1) := (Nat.le_div_iff_mul_le hk).1 hi
    rw [Nat.add_mul] at this
    omega
  simp only [this]
  exact cont_range (cont_nat (f := fun n => (n + (k - 1)) / k) cont_length) default fun i => cont_getD _ _

theorem cont_maxAbs : Continuous (maxAbs : List ℝ → ℝ) := by
  refine continuous_iff_continuousAt.2 fun l => ?_
  induction l with
  | nil => rw [ContinuousAt, nhds_nil]; exact tendsto_pure_nhds _ _
  | cons a l ih =>
    rw [ContinuousAt, List.tendsto_cons_iff]
    simp only [maxAbs, List.foldr_cons] at ih ⊢
    exact tendsto_fst.abs.max (ih.tendsto.comp tendsto_snd)

theorem cumsumFrom_getD : ∀ (l : List ℝ) (u : ℝ) (k : ℕ), (cumsumFrom u l).getD k 0 = if k < l.length then u + (l.take (k + 1)).sum else 0 := by
  intro l
  induction l with
  | nil => intro u k; simp [cumsumFrom]
  | cons a l ih =>
    intro u k
    cases k with
    | zero => simp [cumsumFrom]
    | succ k =>
      rw [cumsumFrom, List.getD_cons_succ, ih]
      simp [add_assoc]

theorem cont_cumsum : Continuous fun l : List ℝ => cumsum l := by
  refine cont_list 0 ?_ fun k => ?_
  · have : ∀ l : List ℝ, (cumsum l).length = l.length := fun l => by
      have := integrate_length 1 l
      simpa [integrate] using this
    simp only [this]
    exact cont_length
  · simp only [cumsum, cumsumFrom_getD, zero_add]
    exact cont_ite cont_length (fun n => k < n) (List.continuous_sum.comp (cont_take _)) continuous_const

theorem cont_integrate (dt : ℝ) : Continuous (integrate dt) := by
  unfold integrate
  exact (cont_map (continuous_id.mul continuous_const)).comp cont_cumsum

theorem getLastD_getD (l : List ℝ) : l.getLastD 0 = l.getD (l.length - 1) 0 := by
  rw [List.getLastD_eq_getLast?, List.getLast?_eq_getElem?, List.getD_eq_getElem?_getD]

theorem cont_unoffset (N : ℕ) : Continuous (unoffset N) := by
  have : unoffset N = fun d : List ℝ => (List.range d.length).map fun k : ℕ => d.getD k 0 - ((k : ℝ) + 1) / (N + 1) * d.getD (d.length - 1) 0 := by
    funext d
    apply List.ext_getElem
    · simp [unoffset]
    · intro k h1 h2
      have hk : k < d.length := by simpa using h2
      simp only [unoffset, List.getElem_map, List.getElem_zipIdx, List.getElem_range, getLastD_getD, zero_add]
      rw [List.getD_eq_getElem _ _ hk]
  rw [this]
  refine cont_len (G := fun n (d : List ℝ) => (List.range n).map fun k : ℕ => d.getD k 0 - ((k : ℝ) + 1) / (N + 1) * d.getD (n - 1) 0) cont_length fun n => ?_
  exact cont_range continuous_const 0 fun k => (cont_getD 0 k).sub (continuous_const.mul (cont_getD 0 _))

theorem cont_displCol (N : ℕ) (dt : ℝ) : Continuous (displCol N dt) := by
  unfold displCol
  exact (cont_unoffset N).comp ((cont_integrate dt).comp (cont_integrate dt))

theorem cont_accelCol (A : List ℂ) : Continuous (accelCol A) := by
  unfold accelCol
  exact (cont_map Complex.continuous_re).comp (cont_ifftL.comp ((cont_zipWith continuous_mul).comp (continuous_const.prodMk continuous_id)))

theorem cont_strainCols : ∀ h : List ℝ, Continuous (strainCols h) := by
  have e : ∀ (h : List ℝ) (d : List (List ℝ)), strainCols h d =
      List.zipWith (fun (t : ℝ) (p : List ℝ × List ℝ) => List.zipWith (fun x y => (x - y) / t) p.1 p.2) h (List.zipWith Prod.mk d (d.drop 1)) := by
    intro h
    induction h with
    | nil => intro d; simp [strainCols]
    | cons t h ih =>
      intro d
      match d with
      | [] => simp [strainCols]
      | [a] => simp [strainCols]
      | a :: b :: d =>
        rw [strainCols, ih]
        simp
  intro h
  have : strainCols h = _ := funext (e h)
  rw [this]
  have c1 : Continuous fun d : List (List ℝ) => List.zipWith Prod.mk d (d.drop 1) :=
    (cont_zipWith (g := Prod.mk) continuous_id).comp (continuous_id.prodMk (cont_drop 1))
  have c2 : ∀ (h : List ℝ), Continuous fun D : List (List ℝ × List ℝ) =>
      List.zipWith (fun (t : ℝ) (p : List ℝ × List ℝ) => List.zipWith (fun x y => (x - y) / t) p.1 p.2) h D := by
    intro h
    refine cont_list [] ?_ fun k => ?_
    · simp only [List.length_zipWith]
      exact continuous_const.min cont_length
    · by_cases hk : k < h.length
      · have : ∀ D : List (List ℝ × List ℝ),
            (List.zipWith (fun (t : ℝ) (p : List ℝ × List ℝ) => List.zipWith (fun x y => (x - y) / t) p.1 p.2) h D).getD k [] =
            List.zipWith (fun x y => (x - y) / h[k]) (D.getD k ([], [])).1 (D.getD k ([], [])).2 := by
          intro D
          by_cases hD : k < D.length
          · rw [List.getD_eq_getElem _ _ (by simp [hk, hD]), List.getD_eq_getElem _ _ hD]; simp
          · rw [List.getD_eq_default _ _ (by simp; omega), List.getD_eq_default _ _ (by omega)]; simp
        simp only [this]
        refine (cont_zipWith (g := fun x y : ℝ => (x - y) / h[k]) ?_).comp ((continuous_fst.comp (cont_getD _ k)).prodMk (continuous_snd.comp (cont_getD _ k)))
        exact (continuous_fst.sub continuous_snd).div_const _
      · refine (continuous_const (y := [])).congr fun D => ?_
        rw [List.getD_eq_default _ _ (by simp; omega)]
  exact (c2 h).comp c1

theorem cont_stressCol : Continuous fun p : ℂ × List ℝ => stressCol p.1 p.2 := by
  have key : ∀ n : ℕ, Continuous fun p : ℂ × List ℝ =>
      (ifftL (realFirst (((fftL (p.2.map fun x : ℝ => (x : ℂ))).take ((n + 1) / 2)).map (· * p.1) ++
        ((((fftL (p.2.map fun x : ℝ => (x : ℂ))).take ((n + 1) / 2)).map (· * p.1)).drop 1).reverse.map (starRingEnd ℂ)))).map Complex.re := by
    intro n
    have c0 : Continuous fun p : ℂ × List ℝ => ((fftL (p.2.map fun x : ℝ => (x : ℂ))).take ((n + 1) / 2)).map (· * p.1) := by
      have c1 : Continuous fun p : ℂ × List ℝ => (fftL (p.2.map fun x : ℝ => (x : ℂ))).take ((n + 1) / 2) :=
        (cont_take _).comp (cont_fftL.comp ((cont_map Complex.continuous_ofReal).comp continuous_snd))
      have c2 : Continuous fun q : ℂ × List ℂ => q.2.map (· * q.1) := by
        refine cont_list 0 (by simp only [List.length_map]; exact cont_length.comp continuous_snd) fun k => ?_
        simp only [getD_map_ite _ (0 : ℂ)]
        exact cont_ite (cont_length.comp continuous_snd) (fun n => k < n) (((cont_getD 0 k).comp continuous_snd).mul continuous_fst) continuous_const
      exact c2.comp (continuous_fst.prodMk c1)
    refine (cont_map Complex.continuous_re).comp (cont_ifftL.comp (cont_realFirst.comp (cont_append.comp (c0.prodMk ?_))))
    exact (cont_map Complex.continuous_conj).comp (cont_reverse.comp ((cont_drop 1).comp c0))
  exact cont_len (cont_length.comp continuous_snd) key

theorem cont_calcStress : Continuous fun p : List ℝ × List ℝ × List (List ℝ) => calcStress p.1 p.2.1 p.2.2 := by
  unfold calcStress
  refine (cont_zipWith (g := stressCol) cont_stressCol).comp (Continuous.prodMk ?_ (continuous_snd.comp continuous_snd))
  refine (cont_zipWith (g := modulusG) ?_).comp ((cont_dropLast.comp continuous_fst).prodMk (cont_dropLast.comp (continuous_fst.comp continuous_snd)))
  unfold modulusG
  fun_prop

end Verif
