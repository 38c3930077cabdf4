import Verif.Props.EveryLayerFlat

/-!
Property C99: acceleration, velocity, displacement, strain and stress of the every-layer solvers are
consistent with each other.
-/

set_option linter.unusedSectionVars false
set_option linter.unusedVariables false

namespace Verif

/-- `v` is the running integral of `a` for the time step `dt`, less a constant drift `s` per step. -/
def Spec.IntegralOf (dt s : ℝ) (a v : List ℝ) : Prop :=
  v.length = a.length ∧ ∀ (k : Nat) (y : ℝ), v[k]? = some y → y = dt * (a.take (k + 1)).sum - ((k : ℝ) + 1) * s

open Spec (IntegralOf Valid5 Fits)

theorem cumsumFrom_take (u : ℝ) (a : List ℝ) (k : Nat) (y : ℝ) (h : (cumsumFrom u a)[k]? = some y) :
    y = u + (a.take (k + 1)).sum := by
  induction a generalizing u k with
  | nil => simp [cumsumFrom] at h
  | cons x a ih =>
    cases k with
    | zero => simp [cumsumFrom] at h; simp [← h]
    | succ k =>
      simp only [cumsumFrom, List.getElem?_cons_succ] at h
      rw [ih _ _ h]
      simp [add_assoc]

theorem integrate_integral (dt : ℝ) (a : List ℝ) : IntegralOf dt 0 a (integrate dt a) := by
  unfold integrate
  refine ⟨by simp [cumsum, cumsumFrom_length], ?_⟩
  intro k y h
  rw [List.getElem?_map] at h
  cases hc : (cumsum a)[k]? with
  | none => rw [hc] at h; cases h
  | some z =>
    rw [hc] at h
    cases h
    rw [cumsumFrom_take 0 a k z hc]
    simp; ring

theorem unoffset_integral {dt : ℝ} {a d : List ℝ} (N : Nat) (h : IntegralOf dt 0 a d) (hN : N = d.length) (hpos : 0 < N) :
    IntegralOf dt (d.getLastD 0 / (N + 1)) a (unoffset N d) ∧ (unoffset N d).getLast? = some (d.getLastD 0 / (N + 1)) := by
  have hl : (unoffset N d).length = d.length := by simp [unoffset]
  refine ⟨⟨by rw [hl, h.1], ?_⟩, ?_⟩
  · intro k y hy
    unfold unoffset at hy
    rw [List.getElem?_map, List.getElem?_zipIdx] at hy
    cases hd : d[k]? with
    | none => rw [hd] at hy; cases hy
    | some z =>
      rw [hd] at hy
      have := h.2 k z hd
      simp only [Option.map_some, Option.some.injEq, zero_add] at hy
      rw [← hy, this]
      ring
  · have hk : N - 1 < d.length := by omega
    rw [List.getLast?_eq_getElem?, hl, ← hN]
    unfold unoffset
    rw [List.getElem?_map, List.getElem?_zipIdx, List.getElem?_eq_getElem hk]
    simp only [Option.map_some, zero_add, Option.some.injEq]
    have hlast : d.getLastD 0 = d[N - 1] := by
      rw [List.getLastD_eq_getLast?, List.getLast?_eq_getElem?, ← hN, List.getElem?_eq_getElem hk]; rfl
    rw [hlast]
    have hc : ((N - 1 : Nat) : ℝ) + 1 = N := by
      have : (N - 1) + 1 = N := by omega
      exact_mod_cast this
    have hN0 : (N : ℝ) + 1 ≠ 0 := by positivity
    rw [hc]
    field_simp
    ring

theorem displCol_integral (N : Nat) (dt : ℝ) (a : List ℝ) (hN : N = a.length) (hpos : 0 < N) :
    ∃ s, IntegralOf dt s (integrate dt a) (displCol N dt a) ∧ (displCol N dt a).getLast? = some s := by
  have h1 := integrate_integral dt a
  have h2 := integrate_integral dt (integrate dt a)
  have := unoffset_integral N h2 (by rw [h2.1, h1.1, hN]) hpos
  exact ⟨_, this⟩

theorem unpad_integral {dt s : ℝ} {a v : List ℝ} (even : Bool) (h : IntegralOf dt s a v) :
    IntegralOf dt s (unpad even a) (unpad even v) := by
  unfold unpad
  cases even with
  | false => exact h
  | true =>
    refine ⟨by simp [h.1], ?_⟩
    intro k y hy
    simp only [if_true] at hy ⊢
    rw [List.getElem?_dropLast] at hy
    split at hy
    · rename_i hk
      rw [h.2 k y hy]
      congr 3
      rw [List.dropLast_eq_take, List.take_take, min_eq_left]
      rw [← h.1]; omega
    · cases hy

/-- Strain columns are differences of displacement columns over the thickness. -/
theorem strainCols_value : ∀ (h : List ℝ) (d : List (List ℝ)) (k : Nat) (g u u' : List ℝ) (t : ℝ),
    (strainCols h d)[k]? = some g → h[k]? = some t → d[k]? = some u → d[k + 1]? = some u' →
    g = List.zipWith (fun x y => (x - y) / t) u u' := by
  intro h
  induction h with
  | nil => intro d k g u u' t hg; simp [strainCols] at hg
  | cons x h ih =>
    intro d k g u u' t hg ht hu hu'
    match d with
    | [] => simp at hu
    | [a] => simp at hu'
    | a :: b :: d =>
      rw [strainCols] at hg
      cases k with
      | zero =>
        simp at hg ht hu hu'
        subst ht hu hu'
        exact hg.symm
      | succ k =>
        simp only [List.getElem?_cons_succ] at hg ht hu hu'
        exact ih (b :: d) k g u u' t hg ht hu hu'

/-- Everything about the kinematics of one response calculation, after removal of the padding. -/
theorem resp_kinematics {dt : ℝ} {b : Boundary} {acc : List ℝ} {Rg : ℝ} {h G D rho : List ℝ} {r : Resp × List ℝ}
    (hN : acc.length % 2 = 1) (h1 : G.length = h.length) (h2 : D.length = h.length)
    (h3 : rho.length = h.length) (hr : linResp dt b acc Rg h G D rho = .ok r) (even : Bool) :
    (∀ (k : Nat) (a v d : List ℝ), (r.1.accel.map (unpad even))[k]? = some a → (r.1.veloc.map (unpad even))[k]? = some v →
      (r.1.displ.map (unpad even))[k]? = some d →
      IntegralOf dt 0 a v ∧ ∃ s, IntegralOf dt s v d ∧ (even = false → d.getLast? = some s)) ∧
    (∀ (k : Nat) (g u u' : List ℝ) (t : ℝ), (r.1.strain.map (unpad even))[k]? = some g → h[k]? = some t → t ≠ 0 →
      (r.1.displ.map (unpad even))[k]? = some u → (r.1.displ.map (unpad even))[k + 1]? = some u' →
      g.length = u.length ∧ ∀ (j : Nat) (y p q : ℝ), g[j]? = some y → u[j]? = some p → u'[j]? = some q → y * t = p - q) := by
  obtain ⟨r1, r2, r3, r4, r5, r6, r7, r8, r9, r10, r11, r12⟩ := linResp_ok hN h1 h2 h3 hr
  constructor
  · intro k a v d ha hv hd
    rw [r3] at hv
    rw [r4] at hd
    rw [List.getElem?_map] at ha hv hd
    rw [List.getElem?_map] at hv hd
    cases hk : r.1.accel[k]? with
    | none => rw [hk] at ha; cases ha
    | some A =>
      rw [hk] at ha hv hd
      cases ha; cases hv; cases hd
      refine ⟨unpad_integral even (integrate_integral dt A), ?_⟩
      have hlen := r8.2 A (List.mem_of_getElem? hk)
      obtain ⟨s, hs, hlast⟩ := displCol_integral acc.length dt A hlen.symm (by omega)
      refine ⟨s, unpad_integral even hs, ?_⟩
      rintro rfl
      exact hlast
  · intro k g u u' t hg ht ht0 hu hu'
    rw [List.getElem?_map] at hg hu hu'
    cases hk : r.1.displ[k]? with
    | none => rw [hk] at hu; cases hu
    | some U =>
    cases hk' : r.1.displ[k + 1]? with
    | none => rw [hk'] at hu'; cases hu'
    | some U' =>
    cases hkg : r.1.strain[k]? with
    | none => rw [hkg] at hg; cases hg
    | some S =>
    rw [hk] at hu; rw [hk'] at hu'; rw [hkg] at hg
    cases hu; cases hu'; cases hg
    rw [r5] at hkg
    have hS := strainCols_value h r.1.displ k S U U' t hkg ht hk hk'
    have l1 := r10.2 U (List.mem_of_getElem? hk)
    have l2 := r10.2 U' (List.mem_of_getElem? hk')
    have hget : ∀ (j : Nat) (y p q : ℝ), S[j]? = some y → U[j]? = some p → U'[j]? = some q → y * t = p - q := by
      intro j y p q hy hp hq
      rw [hS, List.getElem?_zipWith, hp, hq] at hy
      simp only [Option.some.injEq] at hy
      rw [← hy]; field_simp
    have un : ∀ {l : List ℝ} {j : Nat} {y : ℝ}, (unpad even l)[j]? = some y → l[j]? = some y := by
      intro l j y hy
      unfold unpad at hy
      cases even with
      | false => exact hy
      | true =>
        simp only [if_true] at hy
        rw [List.getElem?_dropLast] at hy
        split at hy
        · exact hy
        · cases hy
    refine ⟨?_, fun j y p q hy hp hq => hget j y p q (un hy) (un hp) (un hq)⟩
    have : S.length = U.length := by rw [hS]; simp [l1, l2]
    unfold unpad
    cases even <;> simp [this]

/-- C99. Linear analysis: for every layer the velocity is the running integral of the acceleration, and the displacement is
the running integral of the velocity less a constant drift; for records of odd length the drift is what is left at the end.
The strain of a layer is the difference of the displacements of its two ends over its thickness. -/
theorem C99_linear {rows : List (Row ℝ)} {x : Rec ℝ} {b : Boundary} {dt : ℝ} {last : Row ℝ} {o : SimOut} (hv : Valid5 rows)
    (hl : rows.getLast? = some last) (h0 : last.thk = 0) (h2 : 2 ≤ x.length) (hdt : dtOf x = .ok dt) (hd0 : dt ≠ 0)
    (hb : b = .rigid → 2 ≤ rows.length) (ho : linearSim rows x b = .ok o) :
    (∀ (k : Nat) (a v d : List ℝ), o.a[k]? = some a → o.v[k]? = some v → o.d[k]? = some d →
      IntegralOf dt 0 a v ∧ ∃ s, IntegralOf dt s v d ∧ (x.length % 2 = 1 → d.getLast? = some s)) ∧
    (∀ (k : Nat) (g u u' : List ℝ) (q : Row ℝ), o.gamma[k]? = some g → o.profile[k]? = some q → q.thk ≠ 0 →
      o.d[k]? = some u → o.d[k + 1]? = some u' →
      g.length = u.length ∧ ∀ (j : Nat) (y p p' : ℝ), g[j]? = some y → u[j]? = some p → u'[j]? = some p' → y * q.thk = p - p') := by
  obtain ⟨hop, pm, r, hp, hpd, hpl, hodd, h3, hr, _, _, _, e1, e2, e3, e4, e5⟩ := linearSim_tf hv hl h0 h2 hdt hd0 hb ho _ rfl
  obtain ⟨pm', hp', _, _, _, _, hev, _⟩ := prepMotion_ok x h2
  rw [hp] at hp'; cases hp'
  obtain ⟨k1, k2⟩ := resp_kinematics (by rw [hpl]; exact hodd) (by simp) (by simp) (by simp) hr pm.even
  rw [e1, e2, e3, e4, hop]
  constructor
  · intro k a v d ha hv hd
    obtain ⟨i1, s, i2, i3⟩ := k1 k a v d ha hv hd
    refine ⟨i1, s, i2, fun ho => i3 ?_⟩
    cases hE : pm.even with
    | false => rfl
    | true => have := hev.mp hE; omega
  · intro k g u u' q hg hq hq0 hu hu'
    exact k2 k g u u' q.thk hg (by rw [List.getElem?_map, hq]; rfl) hq0 hu hu'

/-- C99. The same for the equivalent-linear analysis. -/
theorem C99_equiv {rows : List (Row ℝ)} {x : Rec ℝ} {b : Boundary} {cols : List (List ℝ)} {tol Rg dt : ℝ}
    {maxIter : Int} {verbose : Bool} {last : Row ℝ} {o : SimOut} (hv : Valid5 rows)
    (hl : rows.getLast? = some last) (h0 : last.thk = 0) (h2 : 2 ≤ x.length)
    (hdt : dtOf x = .ok dt) (hd0 : dt ≠ 0)
    (ho : equivLinear rows x cols b tol Rg maxIter verbose = .ok o) :
    (∀ (k : Nat) (a v d : List ℝ), o.a[k]? = some a → o.v[k]? = some v → o.d[k]? = some d →
      IntegralOf dt 0 a v ∧ ∃ s, IntegralOf dt s v d ∧ (x.length % 2 = 1 → d.getLast? = some s)) ∧
    (∀ (k : Nat) (g u u' : List ℝ) (q : Row ℝ), o.gamma[k]? = some g → (stratify5 rows)[k]? = some q → q.thk ≠ 0 →
      o.d[k]? = some u → o.d[k + 1]? = some u' →
      g.length = u.length ∧ ∀ (j : Nat) (y p p' : ℝ), g[j]? = some y → u[j]? = some p → u'[j]? = some p' → y * q.thk = p - p') := by
  obtain ⟨pm, r, eff, G, D, G', cs, hp, _, hr, e1, e2, e3, e4, _, l1, l2, _, _, _⟩ := C89_lag_partial hv hl h0 h2 hdt hd0 ho
  obtain ⟨pm', hp', _, hodd, _, _, hev, _⟩ := prepMotion_ok x h2
  rw [hp] at hp'; cases hp'
  obtain ⟨k1, k2⟩ := resp_kinematics hodd (by simp [l1]) (by simp [l2]) (by simp) hr pm.even
  rw [e1, e2, e3, e4]
  constructor
  · intro k a v d ha hv hd
    obtain ⟨i1, s, i2, i3⟩ := k1 k a v d ha hv hd
    refine ⟨i1, s, i2, fun ho => i3 ?_⟩
    cases hE : pm.even with
    | false => rfl
    | true => have := hev.mp hE; omega
  · intro k g u u' q hg hq hq0 hu hu'
    exact k2 k g u u' q.thk hg (by rw [List.getElem?_map, hq]; rfl) hq0 hu hu'

/-- C90. Linear analysis of a record with an odd number of samples: in the frequency domain the stress of a layer is the strain
times `ρ Vs² (1 + 2 i ξ)`, and its mean is the mean strain times `ρ Vs²`. -/
theorem C90_linear {rows : List (Row ℝ)} {x : Rec ℝ} {b : Boundary} {dt : ℝ} {last : Row ℝ} {o : SimOut} (hv : Valid5 rows)
    (hl : rows.getLast? = some last) (h0 : last.thk = 0) (h2 : 2 ≤ x.length) (hdt : dtOf x = .ok dt) (hd0 : dt ≠ 0)
    (hb : b = .rigid → 2 ≤ rows.length) (ho : linearSim rows x b = .ok o) (hx : x.length % 2 = 1)
    (k : Nat) (g τ : List ℝ) (q : Row ℝ) (hg : o.gamma[k]? = some g) (hτ : o.tau[k]? = some τ) (hq : o.profile[k]? = some q) :
    τ.length = g.length ∧
    (∀ j, 0 < j → j < (g.length + 1) / 2 →
      (fftL (cx τ)).getD j 0 = (⟨q.rho * q.vs ^ 2, q.rho * q.vs ^ 2 * (2 * q.xi)⟩ : ℂ) * (fftL (cx g)).getD j 0) ∧
    τ.sum = q.rho * q.vs ^ 2 * g.sum := by
  obtain ⟨hop, pm, r, hp, hpd, hpl, hodd, h3, hr, _, _, _, e1, e2, e3, e4, e5⟩ := linearSim_tf hv hl h0 h2 hdt hd0 hb ho _ rfl
  obtain ⟨pm', hp', _, _, _, _, hev, _⟩ := prepMotion_ok x h2
  rw [hp] at hp'; cases hp'
  have hE : pm.even = false := by
    cases hE : pm.even with
    | false => rfl
    | true => have := hev.mp hE; omega
  have hid : ∀ l : List (List ℝ), l.map (unpad false) = l := by intro l; exact List.map_id' l
  rw [hE, hid] at e4 e5
  obtain ⟨r1, r2, r3, r4, r5, r6, r7, r8, r9, r10, r11, r12⟩ := linResp_ok (by rw [hpl]; exact hodd) (by simp) (by simp) (by simp) hr
  rw [e4] at hg
  have hgl := r11.2 g (List.mem_of_getElem? hg)
  have hk : k < (stratify5 rows).length - 1 := by
    have := (List.getElem?_eq_some_iff.mp hg).1
    rw [r11.1] at this; simpa using this
  rw [e5] at hτ
  unfold calcStress at hτ
  rw [List.getElem?_zipWith, hg, List.getElem?_zipWith, List.getElem?_dropLast, List.getElem?_dropLast] at hτ
  simp only [List.length_map] at hτ
  rw [if_pos hk, if_pos hk] at hτ
  rw [hop] at hq
  rw [List.getElem?_map, List.getElem?_map, hq] at hτ
  simp only [Option.map_some, Option.some.injEq] at hτ
  subst hτ
  have hm : modulusG (q.rho * q.vs ^ 2) q.xi = (⟨q.rho * q.vs ^ 2, q.rho * q.vs ^ 2 * (2 * q.xi)⟩ : ℂ) := by
    unfold modulusG
    generalize q.rho * q.vs ^ 2 = G
    apply Complex.ext <;> simp
  rw [hm]
  obtain ⟨c1, c2, c3⟩ := C90_spectrum ⟨q.rho * q.vs ^ 2, q.rho * q.vs ^ 2 * (2 * q.xi)⟩ g (by rw [hgl, hpl]; exact hodd)
  exact ⟨c1, c2, c3⟩

/-- C71. `Equiv_Linear_Simulation.run` with its default settings gets to the packaging of results which fit the re-discretised
profile and the motion. The part missing: the construction of the result objects, which fails for instance if a damping
curve falls below zero. -/
theorem C71_equivRun_partial {rows : List (Row ℝ)} {x : Rec ℝ} {b : Boundary} {cols : List (List ℝ)} {dt : ℝ}
    {verbose : Bool} {last : Row ℝ} (hv : Valid5 rows)
    (hl : rows.getLast? = some last) (h0 : last.thk = 0) (hr2 : 2 ≤ rows.length) (h2 : 2 ≤ x.length)
    (hdt : dtOf x = .ok dt) (hd0 : dt ≠ 0)
    (hn : checkLayerCount ((cols.length / 4 : Nat) : Int) (rows.map Row.mat) = .ok ()) (hcols : ∀ c ∈ cols, c ≠ []) :
    ∃ o, Fits ((stratify5 rows).length - 1) x.length (x.map Prod.fst) o ∧ equivRun rows x cols b verbose = packResults o := by
  obtain ⟨o, ho, _, hf, _⟩ := C71_equiv_partial (b := b) (tol := 75 / 1000) (Rg := 65 / 100) (maxIter := 10) (verbose := verbose)
    hv hl h0 hr2 h2 hdt hd0 hn hcols (by norm_num)
  refine ⟨o, hf, ?_⟩
  unfold equivRun
  simp only [bind, Except.bind, hn, ho]

end Verif
