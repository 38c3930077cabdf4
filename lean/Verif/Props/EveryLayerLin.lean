import Verif.Props.EveryLayerTf

/-!
Properties C91 (the linear solver is linear in the motion), C92 (flat curves) and C89 (which moduli the
equivalent-linear results belong to).
-/

set_option linter.unusedSectionVars false
set_option linter.unusedVariables false

open Complex ComplexConjugate

namespace Verif

open Spec (Valid5 OneStrainPerLayer Hermitian Table Fits CloseTo before DampedLay MakesUp rowLay initial)

/-- `c` times the first signal plus the second. -/
def Spec.lin (c : ℝ) (a b : List ℝ) : List ℝ := List.zipWith (fun x y => c * x + y) a b

/-- The same for tables of columns. -/
def Spec.linT (c : ℝ) (A B : List (List ℝ)) : List (List ℝ) := List.zipWith (Spec.lin c) A B

open Spec (lin linT)

/-- The complex version. -/
def linC (c : ℝ) (A B : List ℂ) : List ℂ := List.zipWith (fun z w => (c : ℂ) * z + w) A B

theorem lin_length (c : ℝ) (a b : List ℝ) (h : a.length = b.length) : (lin c a b).length = a.length := by
  simp [lin, h]

theorem linC_getD (c : ℝ) (A B : List ℂ) (h : A.length = B.length) (k : Nat) :
    (linC c A B).getD k 0 = c * A.getD k 0 + B.getD k 0 := by
  simp only [linC, List.getD_eq_getElem?_getD, List.getElem?_zipWith]
  by_cases ck : k < A.length
  · rw [List.getElem?_eq_getElem ck, List.getElem?_eq_getElem (by omega)]; rfl
  · rw [List.getElem?_eq_none (by omega), List.getElem?_eq_none (by omega)]; simp

theorem linC_length (c : ℝ) (A B : List ℂ) (h : A.length = B.length) : (linC c A B).length = A.length := by
  simp [linC, h]

theorem ifft_linC (c : ℝ) (A B : List ℂ) (h : A.length = B.length) : ifftL (linC c A B) = linC c (ifftL A) (ifftL B) := by
  apply list_ext_getD
  · rw [ifftL_length, linC_length _ _ _ h, linC_length _ _ _ (by rw [ifftL_length, ifftL_length, h]), ifftL_length]
  intro k hk
  rw [ifftL_length, linC_length _ _ _ h] at hk
  rw [linC_getD _ _ _ (by rw [ifftL_length, ifftL_length, h]), ifftL_getD _ _ (by rw [linC_length _ _ _ h]; exact hk),
    ifftL_getD _ _ hk, ifftL_getD _ _ (by omega), linC_length _ _ _ h, ← h, mul_div_assoc', Finset.mul_sum, ← add_div,
    ← Finset.sum_add_distrib]
  congr 1
  apply Finset.sum_congr rfl
  intro j _
  rw [linC_getD _ _ _ h]; ring

theorem re_linC (c : ℝ) (A B : List ℂ) : (linC c A B).map Complex.re = lin c (A.map Complex.re) (B.map Complex.re) := by
  unfold linC lin
  rw [List.map_zipWith, List.zipWith_map]
  congr 1
  funext z w
  simp

theorem zipWith_linC (c : ℝ) (A B H : List ℂ) :
    List.zipWith (· * ·) (linC c A B) H = linC c (List.zipWith (· * ·) A H) (List.zipWith (· * ·) B H) := by
  induction H generalizing A B with
  | nil => simp [linC]
  | cons z H ih =>
    cases A with
    | nil => simp [linC]
    | cons a A =>
      cases B with
      | nil => simp [linC]
      | cons b B =>
        have := ih A B
        simp only [linC, List.zipWith_cons_cons] at this ⊢
        rw [this]
        congr 1
        ring

theorem accelCol_lin (c : ℝ) (A B H : List ℂ) (h1 : A.length = H.length) (h2 : B.length = H.length) :
    accelCol (linC c A B) H = lin c (accelCol A H) (accelCol B H) := by
  unfold accelCol
  rw [zipWith_linC, ifft_linC _ _ _ (by simp [h1, h2]), re_linC]

theorem cumsumFrom_lin (c : ℝ) (a b : List ℝ) (u v : ℝ) :
    cumsumFrom (c * u + v) (lin c a b) = lin c (cumsumFrom u a) (cumsumFrom v b) := by
  induction a generalizing b u v with
  | nil => simp [lin, cumsumFrom]
  | cons x a ih =>
    cases b with
    | nil => simp [lin, cumsumFrom]
    | cons y b =>
      have := ih b (u + x) (v + y)
      simp only [lin, List.zipWith_cons_cons, cumsumFrom] at this ⊢
      rw [← this]
      congr 1
      · ring
      · congr 1; ring

theorem integrate_lin (dt c : ℝ) (a b : List ℝ) : integrate dt (lin c a b) = lin c (integrate dt a) (integrate dt b) := by
  unfold integrate cumsum
  have := cumsumFrom_lin c a b 0 0
  simp only [mul_zero, add_zero] at this
  rw [this]
  unfold lin
  rw [List.map_zipWith, List.zipWith_map]
  congr 1
  funext x y; ring

theorem getLastD_lin (c : ℝ) (a b : List ℝ) (h : a.length = b.length) :
    (lin c a b).getLastD 0 = c * a.getLastD 0 + b.getLastD 0 := by
  have key : ∀ (l : List ℝ), l.getLastD 0 = l[l.length - 1]?.getD 0 := by
    intro l
    rw [List.getLastD_eq_getLast?, List.getLast?_eq_getElem?]
  rw [key, key, key, lin_length _ _ _ h, ← h]
  unfold lin
  rw [List.getElem?_zipWith]
  cases ha : a[a.length - 1]? with
  | none =>
    have : b[a.length - 1]? = none := by
      rw [List.getElem?_eq_none_iff] at ha ⊢; omega
    rw [this]; simp
  | some x =>
    have hlt := (List.getElem?_eq_some_iff.mp ha).1
    rw [List.getElem?_eq_getElem (by omega)]
    simp

theorem unoffset_lin (N : Nat) (c : ℝ) (a b : List ℝ) (h : a.length = b.length) :
    unoffset N (lin c a b) = lin c (unoffset N a) (unoffset N b) := by
  unfold unoffset
  rw [getLastD_lin _ _ _ h]
  apply List.ext_getElem?
  intro k
  unfold lin
  simp only [List.getElem?_map, List.getElem?_zipIdx, List.getElem?_zipWith]
  cases a[k]? <;> cases b[k]? <;> simp
  ring

theorem displCol_lin (N : Nat) (dt c : ℝ) (a b : List ℝ) (h : a.length = b.length) :
    displCol N dt (lin c a b) = lin c (displCol N dt a) (displCol N dt b) := by
  unfold displCol
  rw [integrate_lin, integrate_lin, unoffset_lin _ _ _ _ (by simp [integrate_length, h])]

theorem strainCols_lin (c : ℝ) (h : List ℝ) (A B : List (List ℝ)) :
    strainCols h (linT c A B) = linT c (strainCols h A) (strainCols h B) := by
  induction h generalizing A B with
  | nil => simp [strainCols, linT]
  | cons t h ih =>
    match A, B with
    | [], _ => simp [linT, strainCols]
    | _ :: _, [] => simp [linT, strainCols]
    | [a], [b] => simp [linT, strainCols]
    | [a], b :: b' :: B => simp [linT, strainCols]
    | a :: a' :: A, [b] => simp [linT, strainCols]
    | a :: a' :: A, b :: b' :: B =>
      have := ih (a' :: A) (b' :: B)
      simp only [linT, List.zipWith_cons_cons, strainCols] at this ⊢
      rw [this]
      congr 1
      apply List.ext_getElem?
      intro k
      simp only [lin, List.getElem?_zipWith]
      cases a[k]? <;> cases b[k]? <;> cases a'[k]? <;> cases b'[k]? <;> simp
      ring

theorem unpad_lin (even : Bool) (c : ℝ) (a b : List ℝ) (h : a.length = b.length) :
    unpad even (lin c a b) = lin c (unpad even a) (unpad even b) := by
  unfold unpad
  cases even with
  | false => rfl
  | true =>
    simp only [if_true]
    rw [List.dropLast_eq_take, List.dropLast_eq_take, List.dropLast_eq_take, lin_length _ _ _ h, ← h]
    unfold lin
    rw [List.take_zipWith]

theorem fft_lin (c : ℝ) (a b : List ℝ) (h : a.length = b.length) : fftL (cx (lin c a b)) = linC c (fftL (cx a)) (fftL (cx b)) :=
  fft_comb c a b h

theorem stressCol_lin (m : ℂ) (c : ℝ) (a b : List ℝ) (h : a.length = b.length) :
    stressCol m (lin c a b) = lin c (stressCol m a) (stressCol m b) := by
  unfold stressCol
  simp only
  rw [show (List.map (fun x : ℝ => (x : ℂ)) (lin c a b)) = cx (lin c a b) from rfl, fft_lin c a b h, lin_length _ _ _ h]
  have hAB : (fftL (cx a)).length = (fftL (cx b)).length := by simp [fftL_length, h]
  set A := fftL (cx a)
  set B := fftL (cx b)
  have e1 : ((linC c A B).take ((a.length + 1) / 2)).map (· * m)
      = linC c ((A.take ((a.length + 1) / 2)).map (· * m)) ((B.take ((a.length + 1) / 2)).map (· * m)) := by
    unfold linC
    rw [List.take_zipWith, List.map_zipWith, List.zipWith_map]
    congr 1
    funext z w; ring
  rw [e1]
  rw [← h]
  set P := (A.take ((a.length + 1) / 2)).map (· * m)
  set Q := (B.take ((a.length + 1) / 2)).map (· * m)
  have hPQ : P.length = Q.length := by simp [P, Q, hAB]
  have e2 : realFirst (linC c P Q ++ ((linC c P Q).drop 1).reverse.map (starRingEnd ℂ))
      = linC c (realFirst (P ++ (P.drop 1).reverse.map (starRingEnd ℂ))) (realFirst (Q ++ (Q.drop 1).reverse.map (starRingEnd ℂ))) := by
    cases hp : P with
    | nil =>
      cases hq : Q with
      | nil => simp [linC, realFirst]
      | cons q Q' => rw [hp, hq] at hPQ; simp at hPQ
    | cons p P' =>
      cases hq : Q with
      | nil => rw [hp, hq] at hPQ; simp at hPQ
      | cons q Q' =>
        rw [hp, hq] at hPQ
        have hl : P'.length = Q'.length := by simpa using hPQ
        simp only [linC, List.zipWith_cons_cons, List.cons_append, realFirst, List.drop_succ_cons, List.drop_zero]
        congr 1
        · simp
        · rw [List.zipWith_append hl, List.reverse_zipWith hl, List.map_zipWith, List.zipWith_map]
          congr 2
          funext z w
          simp
  rw [e2, ifft_linC _ _ _ (by simp [realFirst_length, hPQ]), re_linC]

/-! ## C91 -/

theorem lin_div2 (c : ℝ) (a b : List ℝ) : (lin c a b).map (· / 2) = lin c (a.map (· / 2)) (b.map (· / 2)) := by
  unfold lin
  rw [List.map_zipWith, List.zipWith_map]
  congr 1
  funext x y; ring

theorem getLast?_lin (c : ℝ) (a b : List ℝ) (h : a.length = b.length) (x y : ℝ) (hx : a.getLast? = some x) (hy : b.getLast? = some y) :
    (lin c a b).getLast? = some (c * x + y) := by
  rw [List.getLast?_eq_getElem?] at hx hy ⊢
  rw [lin_length _ _ _ h]
  unfold lin
  rw [List.getElem?_zipWith, hx, h, hy]

theorem prepMotion_lin (c : ℝ) (x₁ x₂ : Rec ℝ) (h2 : 2 ≤ x₁.length) (ht : x₁.map Prod.fst = x₂.map Prod.fst)
    {p₁ p₂ p : PrepMotion} (h₁ : prepMotion x₁ = .ok p₁) (h₂ : prepMotion x₂ = .ok p₂)
    (h : prepMotion (Spec.comb c x₁ x₂) = .ok p) :
    p.a = lin c p₁.a p₂.a ∧ p₁.a.length = p₂.a.length ∧ p.even = p₁.even ∧ p₂.even = p₁.even := by
  have hl : x₁.length = x₂.length := by simpa using congrArg List.length ht
  have hlc : (Spec.comb c x₁ x₂).length = x₁.length := by simp [Spec.comb, hl]
  obtain ⟨q₁, e₁, _, _, _, _, _, _, _, _⟩ := prepMotion_ok x₁ h2
  have ha : ((Spec.comb c x₁ x₂).map Prod.snd).map (· / 2)
      = lin c ((x₁.map Prod.snd).map (· / 2)) ((x₂.map Prod.snd).map (· / 2)) := by
    rw [comb_snd, ← lin_div2]; rfl
  set a₁ := (x₁.map Prod.snd).map (· / 2) with ea₁
  set a₂ := (x₂.map Prod.snd).map (· / 2) with ea₂
  have l1 : a₁.length = x₁.length := by simp [ea₁]
  have l2 : a₂.length = x₁.length := by simp [ea₂, hl]
  have lc : (lin c a₁ a₂).length = x₁.length := by rw [lin_length _ _ _ (by omega), l1]
  have key : ∀ (x : Rec ℝ) (q : PrepMotion) (a : List ℝ), prepMotion x = .ok q → (x.map Prod.snd).map (· / 2) = a → a.length = x₁.length →
      x.length = x₁.length →
      ∃ y, a.getLast? = some y ∧ (q.even = true ↔ x₁.length % 2 = 0) ∧ q.a = if x₁.length % 2 = 0 then a ++ [y] else a := by
    intro x q a hq ea la lx
    have la' : 0 < a.length := by omega
    have hx : 0 < (x.map Prod.fst).length := by simp; omega
    obtain ⟨y, hy⟩ : ∃ y, a.getLast? = some y := ⟨_, List.getLast?_eq_some_getLast (List.length_pos_iff.mp la')⟩
    obtain ⟨t, htl⟩ : ∃ t, (x.map Prod.fst).getLast? = some t := ⟨_, List.getLast?_eq_some_getLast (List.length_pos_iff.mp hx)⟩
    unfold prepMotion at hq
    simp only [bind, Except.bind] at hq
    cases hd : dtOf x with
    | error e => rw [hd] at hq; cases hq
    | ok dt =>
      rw [hd] at hq
      simp only at hq
      rw [ea, htl, hy] at hq
      simp only [la] at hq
      by_cases cc : x₁.length % 2 = 0
      · rw [if_pos cc] at hq
        cases hq
        exact ⟨y, hy, ⟨fun _ => cc, fun _ => rfl⟩, by rw [if_pos cc]⟩
      · rw [if_neg cc] at hq
        cases hq
        exact ⟨y, hy, ⟨fun h => absurd h (by simp), fun h => absurd h cc⟩, by rw [if_neg cc]⟩
  obtain ⟨y₁, hy₁, b₁, k₁⟩ := key x₁ p₁ a₁ h₁ rfl l1 rfl
  obtain ⟨y₂, hy₂, b₂, k₂⟩ := key x₂ p₂ a₂ h₂ rfl l2 hl.symm
  obtain ⟨y, hy, b, k⟩ := key _ p _ h ha lc hlc
  rw [getLast?_lin c a₁ a₂ (by omega) _ _ hy₁ hy₂] at hy
  cases hy
  refine ⟨?_, ?_, ?_, ?_⟩
  · rw [k, k₁, k₂]
    by_cases cc : x₁.length % 2 = 0
    · rw [if_pos cc, if_pos cc, if_pos cc]
      unfold lin
      rw [List.zipWith_append (by omega)]
      rfl
    · rw [if_neg cc, if_neg cc, if_neg cc]
  · rw [k₁, k₂]
    by_cases cc : x₁.length % 2 = 0
    · rw [if_pos cc, if_pos cc]; simp; omega
    · rw [if_neg cc, if_neg cc]; omega
  · exact Bool.eq_iff_iff.mpr (b.trans b₁.symm)
  · exact Bool.eq_iff_iff.mpr (b₂.trans b₁.symm)

/-- Applying a column operation that respects linear combinations. -/
theorem linT_map (c : ℝ) (N : Nat) (f : List ℝ → List ℝ) (A B : List (List ℝ))
    (hA : ∀ a ∈ A, a.length = N) (hB : ∀ b ∈ B, b.length = N)
    (hf : ∀ a b : List ℝ, a.length = N → b.length = N → f (lin c a b) = lin c (f a) (f b)) :
    (linT c A B).map f = linT c (A.map f) (B.map f) := by
  unfold linT
  induction A generalizing B with
  | nil => simp
  | cons a A ih =>
    cases B with
    | nil => simp
    | cons b B =>
      simp only [List.zipWith_cons_cons, List.map_cons]
      rw [hf a b (hA _ (by simp)) (hB _ (by simp)), ih B (fun a h => hA a (by simp [h])) (fun b h => hB b (by simp [h]))]

theorem calcStress_lin (c : ℝ) (N : Nat) (G D : List ℝ) (A B : List (List ℝ)) (hA : ∀ a ∈ A, a.length = N)
    (hB : ∀ b ∈ B, b.length = N) : calcStress G D (linT c A B) = linT c (calcStress G D A) (calcStress G D B) := by
  unfold calcStress linT
  generalize List.zipWith modulusG G.dropLast D.dropLast = M
  induction M generalizing A B with
  | nil => simp
  | cons m M ih =>
    match A, B with
    | [], _ => simp
    | _ :: _, [] => simp
    | a :: A, b :: B =>
      simp only [List.zipWith_cons_cons]
      rw [ih A B (fun a h => hA a (by simp [h])) (fun b h => hB b (by simp [h])),
        stressCol_lin m c a b (by rw [hA a (by simp), hB b (by simp)])]

theorem linT_length {c : ℝ} {A B : List (List ℝ)} (h : A.length = B.length) : (linT c A B).length = A.length := by
  simp [linT, h]

theorem linT_mem {c : ℝ} {N : Nat} {A B : List (List ℝ)} (hA : ∀ a ∈ A, a.length = N)
    (hB : ∀ b ∈ B, b.length = N) : ∀ x ∈ linT c A B, x.length = N := by
  intro x hx
  obtain ⟨a, ha, b, hb, rfl⟩ := zipWith_mem _ _ _ _ hx
  rw [lin_length _ _ _ (by rw [hA a ha, hB b hb]), hA a ha]

/-- C91. For two motions at the same times, the linear solver also succeeds for `c·x₁ + x₂`, and
accelerations, velocities, displacements, strains and stresses of all layers are the same combination
of those of the two motions; profile, frequencies and transfer function do not depend on the motion. -/
theorem C91_linear {rows : List (Row ℝ)} {x₁ x₂ : Rec ℝ} {b : Boundary} {dt : ℝ} {last : Row ℝ} {o₁ o₂ : SimOut} (c : ℝ)
    (hv : Valid5 rows)
    (hl : rows.getLast? = some last) (h0 : last.thk = 0) (h2 : 2 ≤ x₁.length) (ht : x₁.map Prod.fst = x₂.map Prod.fst)
    (hdt : dtOf x₁ = .ok dt) (hd0 : dt ≠ 0)
    (hb : b = .rigid → 2 ≤ rows.length) (ho₁ : linearSim rows x₁ b = .ok o₁) (ho₂ : linearSim rows x₂ b = .ok o₂) :
    ∃ o, linearSim rows (Spec.comb c x₁ x₂) b = .ok o ∧
      o.a = linT c o₁.a o₂.a ∧ o.v = linT c o₁.v o₂.v ∧ o.d = linT c o₁.d o₂.d ∧ o.gamma = linT c o₁.gamma o₂.gamma ∧
      o.tau = linT c o₁.tau o₂.tau ∧ o.surface = Spec.comb c o₁.surface o₂.surface ∧
      (o.profile = o₁.profile ∧ o.freq = o₁.freq ∧ o.tf = o₁.tf) ∧
      o.profile = o₂.profile ∧ o.freq = o₂.freq ∧ o.tf = o₂.tf := by
  have hlen : x₁.length = x₂.length := by simpa using congrArg List.length ht
  have hlc : (Spec.comb c x₁ x₂).length = x₁.length := by simp [Spec.comb, hlen]
  have dtEq : ∀ x y : Rec ℝ, x.map Prod.fst = y.map Prod.fst → dtOf x = dtOf y := by
    intro x y h
    match x, y, h with
    | [], [], _ => rfl
    | [_], [_], h => rfl
    | p :: q :: r, p' :: q' :: r', h =>
      simp only [List.map_cons, List.cons.injEq] at h
      simp [dtOf, h.1, h.2.1]
    | [_], _ :: _ :: _, h => simp at h
    | _ :: _ :: _, [_], h => simp at h
  have hdt₂ : dtOf x₂ = .ok dt := by rw [← dtEq _ _ ht, hdt]
  have hdtc : dtOf (Spec.comb c x₁ x₂) = .ok dt := by rw [dtEq _ _ (comb_fst c x₁ x₂ hlen), hdt]
  obtain ⟨o, ho, _, hfit, _⟩ := C71_linear_partial hv hl h0 (x := Spec.comb c x₁ x₂) (by omega) hdtc hd0 hb
  obtain ⟨o₁', ho₁', _, hfit₁, _⟩ := C71_linear_partial hv hl h0 h2 hdt hd0 hb
  obtain ⟨o₂', ho₂', _, hfit₂, _⟩ := C71_linear_partial hv hl h0 (x := x₂) (by omega) hdt₂ hd0 hb
  rw [ho₁] at ho₁'; cases ho₁'
  rw [ho₂] at ho₂'; cases ho₂'
  obtain ⟨N, hN⟩ : ∃ N, N = if x₁.length % 2 = 0 then x₁.length + 1 else x₁.length := ⟨_, rfl⟩
  obtain ⟨pr, p, r, hp, hpd, hpN, _, _, hr, hH, hf, htf, ha, hvv, hd, hg, hta⟩ := linearSim_tf hv hl h0 (by omega) hdtc hd0 hb ho N
    (by rw [hlc]; exact hN)
  obtain ⟨pr₁, p₁, r₁, hp₁, hpd₁, hpN₁, hodd, _, hr₁, hH₁, hf₁, htf₁, ha₁, hvv₁, hd₁, hg₁, hta₁⟩ :=
    linearSim_tf hv hl h0 h2 hdt hd0 hb ho₁ N hN
  obtain ⟨pr₂, p₂, r₂, hp₂, hpd₂, hpN₂, _, _, hr₂, hH₂, hf₂, htf₂, ha₂, hvv₂, hd₂, hg₂, hta₂⟩ :=
    linearSim_tf hv hl h0 (by omega) hdt₂ hd0 hb ho₂ N (by rw [← hlen]; exact hN)
  obtain ⟨ea, _, ev, ev₂⟩ := prepMotion_lin c x₁ x₂ h2 ht hp₁ hp₂ hp
  obtain ⟨_, b2, b3, b4, b5, _, b7, b8, b9, b10, b11, _⟩ := linResp_ok (by rw [hpN]; exact hodd) (by simp) (by simp) (by simp) hr
  obtain ⟨_, c2, c3, c4, c5, _, c7, c8, c9, c10, c11, _⟩ := linResp_ok (by rw [hpN₁]; exact hodd) (by simp) (by simp) (by simp) hr₁
  obtain ⟨_, d2, d3, d4, d5, _, d7, d8, d9, d10, d11, _⟩ := linResp_ok (by rw [hpN₂]; exact hodd) (by simp) (by simp) (by simp) hr₂
  have eH₁ : r₁.1.H = r.1.H := Except.ok.inj (hH₁.symm.trans hH)
  have eH₂ : r₂.1.H = r.1.H := Except.ok.inj (hH₂.symm.trans hH)
  rw [hpN₁] at c7 c8 c9 c10 c11 c4
  rw [hpN₂] at d7 d8 d9 d10 d11 d4
  rw [hpN] at b7 b4
  have hacc : r.1.accel = linT c r₁.1.accel r₂.1.accel := by
    rw [b2, c2, d2, eH₁, eH₂, ea]
    rw [show (List.map (fun x : ℝ => (x : ℂ)) (lin c p₁.a p₂.a)) = cx (lin c p₁.a p₂.a) from rfl, fft_lin c _ _ (by omega)]
    unfold linT
    rw [List.zipWith_map, List.zipWith_self]
    apply List.map_congr_left
    intro H hHm
    have := b7.2 H hHm
    exact accelCol_lin c _ _ H (by rw [fftL_length]; simp; omega) (by rw [fftL_length]; simp; omega)
  have hvel : r.1.veloc = linT c r₁.1.veloc r₂.1.veloc := by
    rw [b3, c3, d3, hacc]
    exact linT_map c N _ _ _ c8.2 d8.2 fun a b _ _ => integrate_lin _ _ _ _
  have hdis : r.1.displ = linT c r₁.1.displ r₂.1.displ := by
    rw [b4, c4, d4, hacc]
    exact linT_map c N _ _ _ c8.2 d8.2 fun a b h h' => displCol_lin _ _ _ _ _ (by omega)
  have hstr : r.1.strain = linT c r₁.1.strain r₂.1.strain := by
    rw [b5, c5, d5, hdis, strainCols_lin]
  have un : ∀ (A B : List (List ℝ)), (∀ a ∈ A, a.length = N) → (∀ b ∈ B, b.length = N) →
      (linT c A B).map (unpad p.even) = linT c (A.map (unpad p₁.even)) (B.map (unpad p₂.even)) := by
    intro A B hA hB
    rw [ev, ev₂]
    exact linT_map c N _ _ _ hA hB fun a b h h' => unpad_lin _ _ _ _ (by omega)
  have oa : o.a = linT c o₁.a o₂.a := by rw [ha, ha₁, ha₂, hacc]; exact un _ _ c8.2 d8.2
  refine ⟨o, ho, oa, ?_, ?_, ?_, ?_, ?_, ⟨by rw [pr, pr₁], by rw [hf, hf₁, hlc], by rw [htf, htf₁, hlc, eH₁]⟩,
    by rw [pr, pr₂], by rw [hf, hf₂, hlc, hlen], by rw [htf, htf₂, hlc, hlen, eH₂]⟩
  · rw [hvv, hvv₁, hvv₂, hvel]; exact un _ _ c9.2 d9.2
  · rw [hd, hd₁, hd₂, hdis]; exact un _ _ c10.2 d10.2
  · rw [hg, hg₁, hg₂, hstr]; exact un _ _ c11.2 d11.2
  · rw [hta, hta₁, hta₂, hstr, calcStress_lin c N _ _ _ _ c11.2 d11.2]
    refine un _ _ ?_ ?_
    · have := calcStress_shape N hodd ((stratify5 rows).map fun r => r.rho * r.vs ^ 2) ((stratify5 rows).map Row.xi) r₁.1.strain
        (by simp) (by rw [c11.1]; simp) c11.2
      exact this.2
    · have := calcStress_shape N hodd ((stratify5 rows).map fun r => r.rho * r.vs ^ 2) ((stratify5 rows).map Row.xi) r₂.1.strain
        (by simp) (by rw [d11.1]; simp) d11.2
      exact this.2
  · have hs1 : ∀ (n : Nat) (A B : List (List ℝ)), A.length = n + 1 → B.length = n + 1 →
        (linT c A B).headD [] = lin c (A.headD []) (B.headD []) := by
      intro n A B hA hB
      match A, B, hA, hB with
      | a :: A, b :: B, _, _ => rfl
    have l1 : o₁.surface.length = x₁.length := by simpa using congrArg List.length hfit₁.times
    have l2 : o₂.surface.length = x₁.length := by
      have := congrArg List.length hfit₂.times
      simp at this; omega
    rw [← zip_fst_snd o.surface, ← zip_fst_snd (Spec.comb c o₁.surface o₂.surface), hfit.times, hfit.surface, oa,
      hs1 _ _ _ hfit₁.a.1 hfit₂.a.1, comb_fst _ _ _ hlen, comb_fst _ _ _ (by omega), hfit₁.times, comb_snd, hfit₁.surface,
      hfit₂.surface]
    rfl

/-! A concrete profile: three times a motion gives three times the response. -/

example : ∃ o₁ o, linearSim [demoRow, { demoRow with thk := 0 }] demoMotion .elastic = .ok o₁ ∧
    linearSim [demoRow, { demoRow with thk := 0 }] (Spec.comb 2 demoMotion demoMotion) .elastic = .ok o ∧
    o.gamma = linT 2 o₁.gamma o₁.gamma ∧ o.tf = o₁.tf := by
  obtain ⟨o₁, ho₁, _⟩ := C71_linear_partial (x := demoMotion) (b := .elastic) (dt := 1 / 100 - 0) demoSim_valid rfl rfl
    (by simp [demoMotion]) rfl (by norm_num) (fun h => by cases h)
  obtain ⟨o, ho, _, _, _, hg, _, _, ⟨_, _, ht⟩, _⟩ := C91_linear (dt := 1 / 100 - 0) 2 demoSim_valid rfl rfl
    (by simp [demoMotion]) rfl rfl (by norm_num) (fun h => by cases h) ho₁ ho₁
  exact ⟨o₁, o, ho₁, ho, hg, ht⟩

end Verif
