import Verif.Props.Amplify

/-!
C85: how the transfer function is continued outside its table.  C86: complex transfer
functions.
-/

set_option linter.unusedSectionVars false
set_option linter.unusedVariables false

open Complex ComplexConjugate

namespace Verif

open Spec (TfAt)

/-- Strictly increasing frequencies. -/
def Spec.Increasing (f : List ℝ) : Prop := f.Pairwise (· < ·)

/-- Points in order of their abscissa. -/
def Incr (l : List (ℝ × ℝ)) : Prop := l.Pairwise fun p q => p.1 < q.1

theorem interp_beyond (x : ℝ) (q r : ℝ × ℝ) (hq : x ≤ q.1) : ∀ (l : List (ℝ × ℝ)) (p : ℝ × ℝ),
    (p :: l).getLast? = some r → (∀ s ∈ p :: l, s.1 ≤ x) → r.1 < q.1 →
    interpFrom x p (l ++ [q]) = r.2 + (q.2 - r.2) / (q.1 - r.1) * (x - r.1) := by
  intro l
  induction l with
  | nil =>
    intro p hl hle hr
    simp at hl
    subst hl
    have hp := hle p (by simp)
    simp only [List.nil_append, interpFrom]
    have hne : q.1 - p.1 ≠ 0 := by linarith
    by_cases c : x < q.1
    · rw [if_pos c]
      by_cases c2 : x ≤ p.1
      · rw [if_pos c2, show x = p.1 by linarith]; simp
      · rw [if_neg c2]
    · rw [if_neg c, show x = q.1 by linarith]
      field_simp; ring
  | cons b l ih =>
    intro p hl hle hr
    rw [List.cons_append, interpFrom, if_neg (by have := hle b (by simp); linarith)]
    exact ih b (by simpa using hl) (fun s hs => hle s (by simp [hs])) hr

theorem interp_inside (x : ℝ) (q : ℝ × ℝ) : ∀ (l : List (ℝ × ℝ)) (p r : ℝ × ℝ), (p :: l).getLast? = some r →
    x ≤ r.1 → r.1 < q.1 → interpFrom x p (l ++ [q]) = interpFrom x p l := by
  intro l
  induction l with
  | nil =>
    intro p r hl hx hr
    simp at hl
    subst hl
    simp only [List.nil_append, interpFrom]
    rw [if_pos (by linarith), if_pos hx]
  | cons b l ih =>
    intro p r hl hx hr
    rw [List.cons_append, interpFrom, interpFrom]
    by_cases c : x < b.1
    · rw [if_pos c, if_pos c]
    · rw [if_neg c, if_neg c]
      exact ih b r (by simpa using hl) hx hr

/-- The factor of component `m` when the transfer function may be extrapolated: its value
is read from the extended table at `(m+1)·df`. -/
theorem amplify_bin {x y : Rec ℝ} {f a p : List ℝ} {fi : FreqInt} (hfi : freqInterval x = .ok fi)
    (h : amplifyMotion x f (.ampPhase a p) none true false = .ok y) :
    a.length = f.length ∧ p.length = f.length ∧ f ≠ [] ∧
    ∃ t, extendHigh fi.fmax (f.zip (a.zip p)) = .ok t ∧
    ∀ m : Nat, 0 < m → 2 * m < x.length → ∃ u v : ℝ,
      npInterp ((extendLow fi.df t).map fun r => (r.1, r.2.1)) ((m + 1 : ℕ) * fi.df) = .ok u ∧
      npInterp ((extendLow fi.df t).map fun r => (r.1, r.2.2)) ((m + 1 : ℕ) * fi.df) = .ok v ∧
      (fftL (cx (y.map Prod.snd))).getD m 0 = (fftL (cx (x.map Prod.snd))).getD m 0 * ((u : ℂ) * exp (I * v)) := by
  obtain ⟨x', ds, hp, ha, hf⟩ := amplifyMotion_inv h
  obtain ⟨a', p', fi0, fi', tab, ss, harg, hfi0, hnil, hb, hf', hs, hds⟩ := prepareTf_inv hp
  rw [hfi] at hfi0
  cases hfi0
  have harg' : a.length = f.length ∧ p.length = f.length ∧ a' = a ∧ p' = p := by
    unfold tfArg at harg
    simp only at harg
    by_cases c1 : a.length = f.length
    · rw [if_neg (by rw [not_not]; exact c1)] at harg
      by_cases c2 : p.length = f.length
      · rw [if_neg (by rw [not_not]; exact c2)] at harg
        cases harg; exact ⟨c1, c2, rfl, rfl⟩
      · rw [if_pos c2] at harg; cases harg
    · rw [if_pos c1] at harg; cases harg
  obtain ⟨hal, hpl, rfl, rfl⟩ := harg'
  simp only [if_true] at hb
  obtain ⟨t, ht, rfl, rfl, rfl⟩ := hb
  refine ⟨hal, hpl, hnil, t, ht, ?_⟩
  intro m hm0 hm
  obtain ⟨h2, hn, hh, hfl, hfg, _⟩ := freqInterval_ok hfi
  obtain ⟨s1, _, _, s4⟩ := tfSingle_ok hs
  have hmh : m < fi'.half := by rw [hh, hn]; split_ifs <;> omega
  have hmh2 : fi'.n % 2 = 0 → m + 1 < fi'.f.length := by
    intro he; rw [hfl, hh, if_neg (by omega), hn]; omega
  obtain ⟨u, v, hu, hv, hw⟩ := s4 m _ hm0 (hfg m hmh) hmh2
  refine ⟨u, v, hu, hv, ?_⟩
  have hn2 : 2 ≤ fi'.n := by rw [hn]; exact h2
  have hlen : ss.length = fi'.half := by rw [s1, hfl]
  have hdm : ds[m]? = some ((u : ℂ) * exp (I * v)) := by
    rw [hds, (tfDouble_get _ _ _ hn2 hh hlen).2.1 m hmh, hw]
  obtain ⟨p1, p2, _, _⟩ := prepareTf_ok hp
  obtain ⟨hl, hz⟩ := applyTf_inv ha
  obtain ⟨r, hr, hrl, hfr⟩ := applyTf_spec false _ ds hl p2 hz
  rw [ha] at hr
  cases hr
  rw [hfr]
  simp only [tapered, Bool.false_eq_true, if_false]
  rw [List.getD_eq_getElem?_getD, List.getElem?_zipWith, hdm, List.getD_eq_getElem?_getD]
  have hlt : m < (fftL (cx (x'.map Prod.snd))).length := by rw [fftL_length]; simp; omega
  rw [List.getElem?_eq_getElem hlt]
  rfl

theorem pairwise_last_max {f : List ℝ} (h : Spec.Increasing f) {g : ℝ} (hg : f.getLast? = some g) : ∀ b ∈ f, b ≤ g := by
  intro b hb
  rcases List.eq_nil_or_concat f with rfl | ⟨t, z, rfl⟩
  · simp at hb
  · simp [List.concat_eq_append] at hg hb h
    subst hg
    rcases hb with hb | hb
    · have := List.pairwise_append.mp h
      exact le_of_lt (this.2.2 b hb z (by simp))
    · rw [hb]

theorem foldr_max_le {g : ℝ} : ∀ (l : List ℝ) (b : ℝ), b ≤ g → (∀ x ∈ l, x ≤ g) → l.foldr max b ≤ g
  | [], b, hb, _ => hb
  | c :: l, b, hb, h => by
    simp only [List.foldr_cons]
    exact max_le (h c (by simp)) (foldr_max_le l b hb (fun x hx => h x (by simp [hx])))

theorem foldr_min_le {g : ℝ} : ∀ (l : List ℝ) (b : ℝ), g ∈ l → l.foldr min b ≤ g
  | c :: l, b, hm => by
    simp only [List.foldr_cons]
    rcases List.mem_cons.mp hm with hm | hm
    · rw [hm]; exact min_le_left _ _
    · exact le_trans (min_le_right _ _) (foldr_min_le l b hm)

theorem foldr_min_ge {g : ℝ} : ∀ (l : List ℝ) (b : ℝ), g ≤ b → (∀ x ∈ l, g ≤ x) → g ≤ l.foldr min b
  | [], b, hb, _ => hb
  | c :: l, b, hb, h => by
    simp only [List.foldr_cons]
    exact le_min (h c (by simp)) (foldr_min_ge l b hb (fun x hx => h x (by simp [hx])))

theorem zip_getLast (f a : List ℝ) (h : a.length = f.length) (g u : ℝ) (hg : f.getLast? = some g) (hu : a.getLast? = some u) :
    (f.zip a).getLast? = some (g, u) := by
  rw [List.getLast?_eq_getElem?] at hg hu ⊢
  rw [List.getElem?_zip_eq_some]
  simp only [List.length_zip, h, min_self]
  exact ⟨hg, by rw [← h]; exact hu⟩

/-- Where the table is used unchanged, and how it is continued.  Component `m` of the
response (with `0 < m < n/2`; read at `g = (m+1)·df`, see C80) is the component of the
motion times:
* the tabulated transfer function where the table covers `g`;
* beyond the last frequency, the last amplitude and a phase proportional to frequency;
* below the first frequency, the straight line (in amplitude and in phase) from 1 and 0 at
  `df` to the first entries. -/
theorem C85_extrapolation {x y : Rec ℝ} {f a p : List ℝ} {fi : FreqInt} (hfi : freqInterval x = .ok fi)
    (h : amplifyMotion x f (.ampPhase a p) none true false = .ok y) (hinc : Spec.Increasing f) (hpos : 0 < fi.df)
    (f0 a0 p0 fL aL pL : ℝ) (hf0 : f[0]? = some f0) (ha0 : a[0]? = some a0) (hp0 : p[0]? = some p0)
    (hfL : f.getLast? = some fL) (haL : a.getLast? = some aL) (hpL : p.getLast? = some pL) (hfp : 0 < f0)
    (m : Nat) (hm0 : 0 < m) (hm : 2 * m < x.length) (g : ℝ) (hg : g = (m + 1 : ℕ) * fi.df) :
    ∃ w : ℂ, (fftL (cx (y.map Prod.snd))).getD m 0 = (fftL (cx (x.map Prod.snd))).getD m 0 * w ∧
      (f0 ≤ g → g ≤ fL → TfAt f a p g w) ∧
      (fL ≤ g → w = (aL : ℂ) * exp (I * (pL / fL * g : ℝ))) ∧
      (g ≤ f0 → w = ((1 + (a0 - 1) / (f0 - fi.df) * (g - fi.df) : ℝ) : ℂ) * exp (I * (p0 / (f0 - fi.df) * (g - fi.df) : ℝ))) := by
  obtain ⟨hal, hpl, hnil, t, ht, hbin⟩ := amplify_bin hfi h
  obtain ⟨u, v, hu, hv, hval⟩ := hbin m hm0 hm
  refine ⟨_, hval, ?_⟩
  rw [← hg] at hu hv
  obtain ⟨h2, hn, hh, hfl, hfg, hfm, _⟩ := freqInterval_ok hfi
  have hmh : m < fi.half := by rw [hh, hn]; split_ifs <;> omega
  have hgdf : fi.df < g := by
    rw [hg]; push_cast
    have : (1 : ℝ) ≤ m := by exact_mod_cast hm0
    nlinarith
  have hgmax : g ≤ fi.fmax := by
    rw [hg, hfm]
    have : ((m + 1 : ℕ) : ℝ) ≤ fi.half := by exact_mod_cast hmh
    nlinarith
  obtain ⟨z1, z2, z3⟩ := zip3_fst f a p hal hpl
  have hfLmax := pairwise_last_max hinc hfL
  have hf0mem : f0 ∈ f := List.mem_of_getElem? hf0
  have hfLmem : fL ∈ f := List.mem_of_getLast? hfL
  have hf0min : ∀ b ∈ f, f0 ≤ b := by
    match f, hf0, hinc with
    | c :: f, hf0, hinc =>
      simp at hf0
      subst hf0
      intro b hb
      rcases List.mem_cons.mp hb with rfl | hb
      · exact le_refl _
      · exact le_of_lt ((List.pairwise_cons.mp hinc).1 b hb)
  have hfLpos : 0 < fL := lt_of_lt_of_le hfp (hf0min fL hfLmem)
  have htabmax : tabMax (f.zip (a.zip p)) = fL := by
    unfold tabMax
    rw [z3]
    apply le_antisymm
    · apply foldr_max_le _ _ _ hfLmax
      match f, hnil, hfLmax with
      | c :: f, _, hm => exact hm c (by simp)
    · exact foldr_max_ge f _ hfLmem
  have hziplast : (f.zip (a.zip p)).getLast? = some (fL, aL, pL) := by
    rw [List.getLast?_eq_getElem?] at hfL haL hpL ⊢
    rw [List.getElem?_zip_eq_some]
    simp only [List.length_zip, hal, hpl, min_self]
    refine ⟨hfL, ?_⟩
    rw [List.getElem?_zip_eq_some]
    exact ⟨by rw [← hal]; exact haL, by rw [← hpl]; exact hpL⟩
  -- the points of one column `c` (amplitude or phase) and its extension
  have key : ∀ (sel : ℝ × ℝ → ℝ) (c : List ℝ) (c0 cL cE d0 w : ℝ), c.length = f.length →
      (f.zip (a.zip p)).map (fun r => (r.1, sel r.2)) = f.zip c → c[0]? = some c0 → c.getLast? = some cL →
      sel (aL, pL / fL * fi.fmax) = cE → sel (1, 0) = d0 →
      npInterp ((extendLow fi.df t).map fun r => (r.1, sel r.2)) g = .ok w →
      (f0 ≤ g → g ≤ fL → npInterp (f.zip c) g = .ok w) ∧
      (fL ≤ g → w = if fL < fi.fmax then cL + (cE - cL) / (fi.fmax - fL) * (g - fL) else cL) ∧
      (g ≤ f0 → w = d0 + (c0 - d0) / (f0 - fi.df) * (g - fi.df)) := by
    intro sel c c0 cL cE d0 w hcl hcz hc0 hcL hE hd hw
    obtain ⟨f', hf'⟩ : ∃ f', f = f0 :: f' := by
      match f, hf0 with
      | b :: f', hf0 => simp at hf0; exact ⟨f', by rw [hf0]⟩
    obtain ⟨c', hc'⟩ : ∃ c', c = c0 :: c' := by
      match c, hc0 with
      | b :: c', hc0 => simp at hc0; exact ⟨c', by rw [hc0]⟩
    have hzlast := zip_getLast f c hcl fL cL hfL hcL
    have hzip : f.zip c = (f0, c0) :: f'.zip c' := by rw [hf', hc']; rfl
    rw [hzip] at hzlast
    -- the extended table of this column
    have htcol : t.map (fun r => (r.1, sel r.2)) =
        if fL < fi.fmax then (f0, c0) :: (f'.zip c' ++ [(fi.fmax, cE)]) else (f0, c0) :: f'.zip c' := by
      unfold extendHigh at ht
      rw [htabmax] at ht
      by_cases c1 : fL < fi.fmax
      · rw [if_pos c1, hziplast] at ht
        simp only at ht
        rw [if_neg hfLpos.ne'] at ht
        cases ht
        rw [if_pos c1, List.map_append, hcz, hzip]
        simp [hE]
      · rw [if_neg c1] at ht
        cases ht
        rw [if_neg c1, hcz, hzip]
    have htmin : tabMin t = min f0 (tabMin t) ∧ (tabMin t = f0) := by
      have hfst : t.map (fun r => r.1) = if fL < fi.fmax then f ++ [fi.fmax] else f := by
        unfold extendHigh at ht
        rw [htabmax] at ht
        by_cases c1 : fL < fi.fmax
        · rw [if_pos c1, hziplast] at ht
          simp only at ht
          rw [if_neg hfLpos.ne'] at ht
          cases ht
          rw [if_pos c1, List.map_append, z3]
          simp
        · rw [if_neg c1] at ht
          cases ht
          rw [if_neg c1, z3]
      have hall : ∀ b ∈ t.map (fun r => r.1), f0 ≤ b := by
        rw [hfst]
        split_ifs with c1
        · intro b hb
          rcases List.mem_append.mp hb with hb | hb
          · exact hf0min b hb
          · rw [List.mem_singleton.mp hb]
            exact le_trans (hf0min fL hfLmem) c1.le
        · exact hf0min
      have hmem : f0 ∈ t.map (fun r => r.1) := by
        rw [hfst]; split_ifs
        · exact List.mem_append_left _ hf0mem
        · exact hf0mem
      have : tabMin t = f0 := by
        unfold tabMin
        apply le_antisymm
        · exact foldr_min_le _ _ hmem
        · apply foldr_min_ge _ _ _ hall
          generalize t.map (fun r => r.1) = l at hmem hall
          match l, hmem, hall with
          | b :: l, _, hall => exact hall b (by simp)
      exact ⟨by rw [this]; simp, this⟩
    have hdfle : ∀ (l : List (ℝ × ℝ)), f0 ≤ g →
        (npInterp ((extendLow fi.df t).map fun r => (r.1, sel r.2)) g = npInterp (t.map fun r => (r.1, sel r.2)) g) := by
      intro _ hge
      unfold extendLow
      split_ifs with c2
      · rw [List.map_cons]
        have : ∃ l, t.map (fun r => (r.1, sel r.2)) = (f0, c0) :: l := by
          rw [htcol]; split_ifs
          · exact ⟨_, rfl⟩
          · exact ⟨_, rfl⟩
        obtain ⟨l, hl⟩ := this
        rw [hl]
        show Except.ok (interpFrom g _ _) = Except.ok (interpFrom g _ _)
        rw [interpFrom, if_neg (by simpa using hge)]
      · rfl
    refine ⟨?_, ?_, ?_⟩
    · intro h1 h2'
      rw [hdfle [] h1, htcol] at hw
      rw [hzip, ← hw]
      split_ifs with c1
      · show Except.ok (interpFrom g _ _) = Except.ok (interpFrom g _ _)
        rw [interp_inside g (fi.fmax, cE) (f'.zip c') (f0, c0) (fL, cL) hzlast h2' c1]
      · rfl
    · intro h1
      have hge : f0 ≤ g := le_trans (hf0min fL hfLmem) h1
      rw [hdfle [] hge, htcol] at hw
      have hall : ∀ s ∈ (f0, c0) :: f'.zip c', s.1 ≤ g := by
        intro s hs
        rw [← hzip] at hs
        exact le_trans (hfLmax _ (List.of_mem_zip (show (s.1, s.2) ∈ _ from hs)).1) h1
      split_ifs at hw ⊢ with c1
      · have e : Except.ok (interpFrom g (f0, c0) (f'.zip c' ++ [(fi.fmax, cE)])) = (Except.ok w : Except PyErr ℝ) := hw
        rw [interp_beyond g (fi.fmax, cE) (fL, cL) hgmax (f'.zip c') (f0, c0) hzlast hall c1] at e
        exact (Except.ok.inj e).symm
      · have e : Except.ok (interpFrom g (f0, c0) (f'.zip c')) = (Except.ok w : Except PyErr ℝ) := hw
        have hpast : ∀ (l : List (ℝ × ℝ)) (q : ℝ × ℝ), (∀ s ∈ q :: l, s.1 ≤ g) → (q :: l).getLast? = some (fL, cL) →
            interpFrom g q l = cL := by
          intro l
          induction l with
          | nil => intro q _ hl; simp at hl; rw [hl]; rfl
          | cons b l ih =>
            intro q hs hl
            rw [interpFrom, if_neg (by have := hs b (by simp); linarith)]
            exact ih b (fun s hs' => hs s (by simp [hs'])) (by simpa using hl)
        rw [hpast _ _ hall hzlast] at e
        exact (Except.ok.inj e).symm
    · intro h1
      have c2 : fi.df < tabMin t := by rw [htmin.2]; linarith
      unfold extendLow at hw
      rw [if_pos c2, List.map_cons, hd] at hw
      have hne : f0 - fi.df ≠ 0 := by linarith
      obtain ⟨l, hl⟩ : ∃ l, t.map (fun r => (r.1, sel r.2)) = (f0, c0) :: l := by
        rw [htcol]; split_ifs
        · exact ⟨_, rfl⟩
        · exact ⟨_, rfl⟩
      rw [hl] at hw
      have e : Except.ok (interpFrom g (fi.df, d0) ((f0, c0) :: l)) = (Except.ok w : Except PyErr ℝ) := hw
      have e2 := (Except.ok.inj e).symm
      rw [e2, interpFrom]
      by_cases c3 : g < f0
      · rw [if_pos c3, if_neg (by simp; exact hgdf)]
      · have hgf : g = f0 := le_antisymm h1 (not_lt.mp c3)
        rw [if_neg c3]
        have hstart : interpFrom g (f0, c0) l = c0 := by
          have hl' : l = if fL < fi.fmax then f'.zip c' ++ [(fi.fmax, cE)] else f'.zip c' := by
            rw [htcol] at hl
            split_ifs at hl ⊢
            · simpa using hl.symm
            · simpa using hl.symm
          have hgt : ∀ s ∈ l, f0 < s.1 := by
            have hf'gt : ∀ b ∈ f', f0 < b := by
              rw [hf'] at hinc
              exact (List.pairwise_cons.mp hinc).1
            rw [hl']
            split_ifs with c1
            · intro s hs
              rcases List.mem_append.mp hs with hs | hs
              · exact hf'gt _ (List.of_mem_zip (show (s.1, s.2) ∈ _ from hs)).1
              · rw [List.mem_singleton.mp hs]
                exact lt_of_le_of_lt (hf0min fL hfLmem) c1
            · intro s hs
              exact hf'gt _ (List.of_mem_zip (show (s.1, s.2) ∈ _ from hs)).1
          match l, hgt with
          | [], _ => rfl
          | b :: l, hgt =>
            rw [interpFrom, if_pos (by rw [hgf]; exact hgt b (by simp)), if_pos (by simp [hgf])]
        rw [hstart, hgf]
        field_simp; ring
  obtain ⟨ka1, ka2, ka3⟩ := key Prod.fst a a0 aL aL 1 u hal z1 ha0 haL rfl rfl hu
  obtain ⟨kp1, kp2, kp3⟩ := key Prod.snd p p0 pL (pL / fL * fi.fmax) 0 v hpl z2 hp0 hpL rfl rfl hv
  refine ⟨?_, ?_, ?_⟩
  · intro h1 h3
    exact ⟨u, v, ka1 h1 h3, kp1 h1 h3, rfl⟩
  · intro h1
    have hu' : u = aL := by rw [ka2 h1]; split_ifs <;> simp
    have hv' : v = pL / fL * g := by
      rw [kp2 h1]
      split_ifs with c1
      · have hne : fi.fmax - fL ≠ 0 := by linarith
        field_simp; ring
      · have : g = fL := by linarith
        rw [this]; field_simp
    rw [hu', hv']
  · intro h1
    rw [ka3 h1, kp3 h1, sub_zero, zero_add]

/-! ## C86 -/

/-- A complex transfer function is used through its amplitude and unwrapped phase; together
they give back every complex value that does not lie strictly inside a multi-sample climb
of the phase, for phases that do not begin with a climb.  Missing: the other values
(`C86_complex_table_violated`, `C86_initial_climb_violated`). -/
theorem C86_complex_table_partial (tf : List ℂ)
    (h01 : ∀ z w, tf[0]? = some z → tf[1]? = some w → w.arg ≤ z.arg) :
    ∃ a p, tfArg tf.length (.complex tf) = .ok (a, p) ∧ a.length = tf.length ∧ p.length = tf.length ∧
      ∀ (i : Nat) z, tf[i]? = some z → (∀ t q, Spec.Climb (tf.map Complex.arg) t q → ¬ (t < i ∧ i < q)) →
        ∃ u v : ℝ, a[i]? = some u ∧ p[i]? = some v ∧ 0 ≤ u ∧ z = (u : ℂ) * exp (I * v) := by
  refine ⟨tf.map fun z => ‖z‖, robustUnwrap Real.pi Real.pi (tf.map Complex.arg), ?_, by simp,
    by rw [robustUnwrap_length]; simp, ?_⟩
  · unfold tfArg; simp
  · intro i z hz hcl
    obtain ⟨r1, r2, _⟩ := C32_repair_partial Real.pi (tf.map Complex.arg) (by
      intro a b ha hb
      rw [List.getElem?_map, Option.map_eq_some_iff] at ha hb
      obtain ⟨z0, hz0, rfl⟩ := ha
      obtain ⟨z1, hz1, rfl⟩ := hb
      exact h01 z0 z1 hz0 hz1)
    have hrep := r2 i hcl
    rw [List.getElem?_map, hz] at hrep
    obtain ⟨n1, _, n3, _⟩ := C32_unwrap Real.pi Real.pi Real.pi_pos 0 (repair Real.pi (tf.map Complex.arg)) ⟨0, by simp⟩
    have hi : i < (npUnwrapFrom Real.pi Real.pi 0 (repair Real.pi (tf.map Complex.arg))).length := by
      rw [n1, r1]
      by_contra hc
      rw [List.getElem?_eq_none (by simpa using hc)] at hz; cases hz
    obtain ⟨k, hk⟩ := n3 i _ _ hrep (List.getElem?_eq_getElem hi)
    refine ⟨‖z‖, _, by rw [List.getElem?_map, hz]; rfl, List.getElem?_eq_getElem hi, norm_nonneg _, ?_⟩
    rw [hk]
    push_cast
    rw [mul_add, Complex.exp_add, show I * (2 * (Real.pi : ℂ) * (k : ℂ)) = (k : ℂ) * (2 * Real.pi * I) by ring,
      Complex.exp_int_mul_two_pi_mul_I, mul_one, mul_comm I, Complex.norm_mul_exp_arg_mul_I]

/-- C86 fails for a phase that begins with a climb: the values 1, i, 1 are used as -1, i, 1
(the first value changes sign). -/
theorem C86_complex_table_violated :
    ∃ a p, tfArg 3 (.complex [1, I, 1]) = .ok (a, p) ∧ ∃ u v : ℝ, a[0]? = some u ∧ p[0]? = some v ∧
      (u : ℂ) * exp (I * v) = -1 := by
  have hrep : repair Real.pi [0, Real.pi / 2, 0] = [-Real.pi, Real.pi / 2, 0] := by
    have hp : ¬Real.pi / 2 ≤ 0 := by have := Real.pi_pos; linarith
    have hp2 : (0 : ℝ) ≤ Real.pi / 2 := by have := Real.pi_pos; linarith
    have hd : (uLoop 1 ⟨-1, -1, false, []⟩ [0, Real.pi / 2, 0]).drawer = [(-1, 1)] := by
      simp only [uLoop, uStep]
      rw [if_neg hp]
      simp only [hp2, if_true]
      rfl
    unfold repair
    rw [hd]
    simp only [List.foldl_cons, List.foldl_nil, repairPair]
    have e1 : ((1 : Int) - -1).toNat = 2 := rfl
    have e2 : wrapIdx 3 (-1) = 2 := rfl
    have e3 : wrapIdx 3 (-1 + ((1 : Nat) : Int)) = 0 := rfl
    have e4 : wrapIdx 3 (-1 + ((0 : Nat) : Int)) = 2 := rfl
    simp only [List.length_cons, List.length_nil, Nat.reduceAdd, e1, List.range_succ, List.range_zero, List.nil_append,
      List.cons_append, fillClimb, e2, e3, e4]
    simp
  refine ⟨_, _, by unfold tfArg; simp; exact ⟨rfl, rfl⟩, 1, -Real.pi, by simp, ?_, ?_⟩
  · unfold robustUnwrap
    rw [hrep]
    simp [npUnwrapFrom]
  · rw [show I * ((-Real.pi : ℝ) : ℂ) = -(Real.pi * I) by push_cast; ring, Complex.exp_neg, Complex.exp_pi_mul_I]
    norm_num

end Verif
