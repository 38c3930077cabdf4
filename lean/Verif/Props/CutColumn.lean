import Verif.Props.RigidBase
import Verif.Props.Repeat

/-!
C221: a soil column can be cut: the upper part, driven at its base by the motion the whole column has there, moves like
it does in the whole column.
-/

set_option linter.unusedSectionVars false
set_option linter.unusedVariables false

namespace Verif

open Spec (Valid5 DampedLay Hermitian rowLay)

/-! ### Amplitudes in the upper part -/

theorem abScan_zero (w : ℝ) (p : ℂ × ℂ) (L : List (GLay × ℂ)) : (abScan w p L)[0]? = some p := by
  cases L with
  | nil => rfl
  | cons x L => rfl

theorem abScan_step (w : ℝ) : ∀ (L : List (GLay × ℂ)) (p : ℂ × ℂ) (k : Nat) q x, (abScan w p L)[k]? = some q → L[k]? = some x →
    (abScan w p L)[k + 1]? = some (abNext w x.1 x.2 q) := by
  intro L
  induction L with
  | nil => intro p k q x _ h; cases h
  | cons y L ih =>
    intro p k q x hq hx
    cases k with
    | zero =>
      cases hx
      rw [abScan_zero] at hq; cases hq
      show (abScan w _ L)[0]? = _
      rw [abScan_zero]
    | succ k => exact ih _ k q x hq hx

/-- The displacement at the top of the next layer does not depend on the stiffness of that layer. -/
theorem abNext_sum (w : ℝ) (l : GLay) (a a' : ℂ) (p : ℂ × ℂ) :
    (abNext w l a p).1 + (abNext w l a p).2 = (abNext w l a' p).1 + (abNext w l a' p).2 := by
  unfold abNext; simp only; ring

theorem alphas_get {b : Boundary} {G : List GLay} {al : List ℂ} (h : alphasG b G = .ok al) :
    al.length = G.length - 1 ∧ ∀ (i : Nat) g g', i + 2 < G.length → G[i]? = some g → G[i + 1]? = some g' → al[i]? = some (alphaG g g') := by
  have hl : (List.zipWith alphaG G G.tail).length = G.length - 1 := by simp
  have hz : ∀ (i : Nat) g g', G[i]? = some g → G[i + 1]? = some g' → (List.zipWith alphaG G G.tail)[i]? = some (alphaG g g') := by
    intro i g g' h1 h2
    rw [List.getElem?_zipWith, h1, List.getElem?_tail, h2]
  unfold alphasG at h
  cases b with
  | elastic =>
    simp only at h
    rw [← Except.ok.inj h]
    exact ⟨hl, fun i g g' _ => hz i g g'⟩
  | rigid =>
    simp only at h
    split_ifs at h with h0
    rw [← Except.ok.inj h]
    have hpos : 0 < (List.zipWith alphaG G G.tail).length := List.length_pos_of_ne_nil h0
    refine ⟨by rw [List.length_append, List.length_dropLast, List.length_singleton]; omega, ?_⟩
    intro i g g' hi h1 h2
    rw [List.getElem?_append_left (by rw [List.length_dropLast]; omega), List.getElem?_dropLast, if_pos (by omega)]
    exact hz i g g' h1 h2

/-- The rows of the frequency response of the whole column and of the upper part over a rigid base. -/
theorem cut_row {w : ℝ} (hw : 0 < w) {b : Boundary} {ls : List Lay} {base : Lay} {j : Nat} (hd : ∀ l ∈ ls, DampedLay l)
    (hb : DampedLay base) (hj : 0 < j) (hjl : j < ls.length) {row row' : List ℂ} (h : hRow b w (ls.map toG) = .ok row)
    (h' : hRow .rigid w ((ls.take j ++ [base]).map toG) = .ok row') (k : Nat) (hk : k ≤ j) :
    row.getD j 0 / 2 * row'.getD k 0 = row.getD k 0 := by
  have hlen' : (ls.take j ++ [base]).length = j + 1 := by simp; omega
  have hd' : ∀ l ∈ ls.take j ++ [base], DampedLay l := by
    intro l hl
    rcases List.mem_append.1 hl with hl | hl
    · exact hd l (List.mem_of_mem_take hl)
    · rw [List.mem_singleton.1 hl]; exact hb
  have hbase := base_row w hw _ hd' (by omega) row' h'
  rw [hlen', Nat.add_sub_cancel] at hbase
  unfold hRow at h h'
  cases ha : alphasG b (ls.map toG) with
  | error e => rw [ha] at h; cases h
  | ok al =>
  cases ha' : alphasG .rigid ((ls.take j ++ [base]).map toG) with
  | error e => rw [ha'] at h'; cases h'
  | ok al' =>
  rw [ha] at h
  rw [ha'] at h'
  have h := (Except.ok.inj h).symm
  have h' := (Except.ok.inj h').symm
  obtain ⟨l1, g1⟩ := alphas_get ha
  obtain ⟨l2, g2⟩ := alphas_get ha'
  rw [List.length_map] at l1 l2
  have hG : ∀ i, i < j → ((ls.take j ++ [base]).map toG)[i]? = (ls.map toG)[i]? := by
    intro i hi
    rw [List.getElem?_map, List.getElem?_map, List.getElem?_append_left (by simp; omega), List.getElem?_take, if_pos hi]
  have hGs : ∀ i, i < j → ∃ g, (ls.map toG)[i]? = some g := fun i hi => ⟨_, List.getElem?_eq_getElem (by simp; omega)⟩
  set ab := abScan w (1, 1) ((ls.map toG).zip al) with hab
  set ab' := abScan w (1, 1) (((ls.take j ++ [base]).map toG).zip al') with hab'
  -- above the cut
  have key : ∀ k, k < j → ∃ q, ab[k]? = some q ∧ ab'[k]? = some q := by
    intro k
    induction k with
    | zero => intro _; exact ⟨_, abScan_zero _ _ _, abScan_zero _ _ _⟩
    | succ k ih =>
      intro hk
      obtain ⟨q, q1, q2⟩ := ih (by omega)
      obtain ⟨g, hg⟩ := hGs k (by omega)
      obtain ⟨g', hg'⟩ := hGs (k + 1) hk
      have a1 := g1 k g g' (by simp; omega) hg hg'
      have a2 := g2 k g g' (by rw [List.length_map, hlen']; omega) (by rw [hG k (by omega), hg]) (by rw [hG _ hk, hg'])
      exact ⟨_, abScan_step w _ _ k q (g, alphaG g g') q1 (by rw [List.getElem?_zip_eq_some]; exact ⟨hg, a1⟩),
        abScan_step w _ _ k q (g, alphaG g g') q2 (by rw [List.getElem?_zip_eq_some]; exact ⟨by rw [hG k (by omega), hg], a2⟩)⟩
  -- at the cut
  have hsum : ∀ k, k ≤ j → ∃ q q', ab[k]? = some q ∧ ab'[k]? = some q' ∧ q.1 + q.2 = q'.1 + q'.2 := by
    intro k hk
    rcases lt_or_eq_of_le hk with hk | rfl
    · obtain ⟨q, q1, q2⟩ := key k hk
      exact ⟨q, q, q1, q2, rfl⟩
    · obtain ⟨i, rfl⟩ : ∃ i, k = i + 1 := ⟨k - 1, by omega⟩
      obtain ⟨q, q1, q2⟩ := key i (by omega)
      obtain ⟨g, hg⟩ := hGs i (by omega)
      have e1 : al[i]? = some al[i] := List.getElem?_eq_getElem (by omega)
      have e2 : al'[i]? = some al'[i] := List.getElem?_eq_getElem (by omega)
      exact ⟨_, _, abScan_step w _ _ i q (g, al[i]) q1 (by rw [List.getElem?_zip_eq_some]; exact ⟨hg, e1⟩),
        abScan_step w _ _ i q (g, al'[i]) q2 (by rw [List.getElem?_zip_eq_some]; exact ⟨by rw [hG i (by omega), hg], e2⟩),
        abNext_sum _ _ _ _ _⟩
  have er : ∀ (k : Nat) q, ab[k]? = some q → row.getD k 0 = (q.1 + q.2) / (ab.getLastD (1, 1)).1 := by
    intro k q hq
    rw [h, List.getD_eq_getElem?_getD, List.getElem?_map, hq]; rfl
  have er' : ∀ (k : Nat) q, ab'[k]? = some q → row'.getD k 0 = (q.1 + q.2) / (ab'.getLastD (1, 1)).1 := by
    intro k q hq
    rw [h', List.getD_eq_getElem?_getD, List.getElem?_map, hq]; rfl
  obtain ⟨q, q', q1, q2, q3⟩ := hsum k hk
  obtain ⟨p, p', p1, p2, p3⟩ := hsum j le_rfl
  rw [er' j p' p2, ← p3] at hbase
  rw [er j p p1, er' k q' q2, er k q q1, ← q3]
  generalize (ab.getLastD (1, 1)).1 = D at *
  generalize (ab'.getLastD (1, 1)).1 = D' at *
  generalize p.1 + p.2 = P at *
  generalize q.1 + q.2 = Q at *
  have : P / D / 2 * (Q / D') = (P / D') / 2 * (Q / D) := by ring
  rw [this, hbase]
  ring

/-! ### Spectra -/

theorem zipWith_mul_getD (A B : List ℂ) (h : A.length = B.length) (k : Nat) :
    (List.zipWith (· * ·) A B).getD k 0 = A.getD k 0 * B.getD k 0 := by
  simp only [List.getD_eq_getElem?_getD, List.getElem?_zipWith]
  by_cases hk : k < A.length
  · rw [List.getElem?_eq_getElem hk, List.getElem?_eq_getElem (by omega)]; rfl
  · rw [List.getElem?_eq_none (by omega), List.getElem?_eq_none (by omega)]; simp

/-- The spectrum of a filtered motion. -/
theorem fft_accelCol (a : List ℝ) (c : List ℂ) (hc : Hermitian c) (hl : c.length = a.length) :
    fftL (cx (accelCol (fftL (cx a)) c)) = List.zipWith (· * ·) (fftL (cx a)) c := by
  have hH : Hermitian (List.zipWith (· * ·) (fftL (cx a)) c) :=
    zipWith_hermitian _ (fun z w => map_mul _ z w) (by rw [fftL_length]; simp [cx, hl]) (fft_real_hermitian a) hc
  unfold accelCol
  rw [show cx ((ifftL (List.zipWith (· * ·) (fftL (cx a)) c)).map Complex.re) = _ from ifft_hermitian_real hH, fft_ifft]

theorem fft_half (a : List ℝ) (k : Nat) : (fftL (cx (a.map (· / 2)))).getD k 0 = (fftL (cx a)).getD k 0 / 2 := by
  by_cases hk : k < a.length
  · rw [fftL_getD _ _ (by simpa [cx] using hk), fftL_getD _ _ (by simpa [cx] using hk), Finset.sum_div]
    have hl : (cx (a.map (· / 2))).length = (cx a).length := by simp [cx]
    rw [hl]
    apply Finset.sum_congr rfl
    intro j _
    have : (cx (a.map (· / 2))).getD j 0 = (cx a).getD j 0 / 2 := by
      simp only [cx, List.getD_eq_getElem?_getD, List.getElem?_map]
      cases a[j]? <;> simp
    rw [this]; ring
  · rw [List.getD_eq_getElem?_getD, List.getD_eq_getElem?_getD, List.getElem?_eq_none (by rw [fftL_length]; simpa [cx] using hk),
      List.getElem?_eq_none (by rw [fftL_length]; simpa [cx] using hk)]
    simp

/-- The motion of the upper part. -/
theorem cut_accel {a : List ℝ} {cj ck ck' : List ℂ} (ha : a.length % 2 = 1) (h1 : cj.length = a.length) (h2 : ck.length = a.length)
    (h3 : ck'.length = a.length) (H1 : Hermitian cj) (H2 : Hermitian ck) (H3 : Hermitian ck')
    (hm : ∀ m, 0 < m → m < (a.length + 1) / 2 → cj.getD m 0 / 2 * ck'.getD m 0 = ck.getD m 0) :
    ∃ c : ℝ, accelCol (fftL (cx ((accelCol (fftL (cx a)) cj).map (· / 2)))) ck' = (accelCol (fftL (cx a)) ck).map (· + c) ∧
      (a.sum = 0 → c = 0) := by
  have hal : (accelCol (fftL (cx a)) cj).length = a.length := by
    unfold accelCol
    rw [List.length_map, ifftL_length, List.length_zipWith, fftL_length]
    simp [cx, h1]
  set S := List.zipWith (· * ·) (fftL (cx ((accelCol (fftL (cx a)) cj).map (· / 2)))) ck' with hS
  set T := List.zipWith (· * ·) (fftL (cx a)) ck with hT
  have l1 : (fftL (cx a)).length = a.length := by rw [fftL_length]; simp [cx]
  have l2 : (fftL (cx ((accelCol (fftL (cx a)) cj).map (· / 2)))).length = a.length := by rw [fftL_length]; simp [cx, hal]
  have lS : S.length = a.length := by rw [hS, List.length_zipWith, l2, h3, min_self]
  have lT : T.length = a.length := by rw [hT, List.length_zipWith, l1, h2, min_self]
  have eS : ∀ k, S.getD k 0 = (fftL (cx a)).getD k 0 * (cj.getD k 0 / 2 * ck'.getD k 0) := by
    intro k
    rw [hS, zipWith_mul_getD _ _ (by rw [l2, h3]), fft_half, fft_accelCol a cj H1 h1, zipWith_mul_getD _ _ (by rw [l1, h1])]
    ring
  have eT : ∀ k, T.getD k 0 = (fftL (cx a)).getD k 0 * ck.getD k 0 := by
    intro k
    rw [hT, zipWith_mul_getD _ _ (by rw [l1, h2])]
  have hST : ∀ k, 0 < k → k < a.length → S.getD k 0 = T.getD k 0 := by
    intro k h0 hk
    rw [eS, eT]
    by_cases hkh : k < (a.length + 1) / 2
    · rw [hm k h0 hkh]
    · have hm' := hm (a.length - k) (by omega) (by omega)
      have c1 := hermitian_getD H1 (k := a.length - k) (by omega) (by omega)
      have c2 := hermitian_getD H2 (k := a.length - k) (by omega) (by omega)
      have c3 := hermitian_getD H3 (k := a.length - k) (by omega) (by omega)
      rw [h1, show a.length - (a.length - k) = k by omega] at c1
      rw [h2, show a.length - (a.length - k) = k by omega] at c2
      rw [h3, show a.length - (a.length - k) = k by omega] at c3
      rw [c1, c2, c3, ← hm', map_mul, map_div₀, Complex.conj_ofNat]
  refine ⟨((S.getD 0 0 - T.getD 0 0) / a.length).re, ?_, ?_⟩
  · have u : ∀ A H, accelCol A H = (ifftL (List.zipWith (· * ·) A H)).map Complex.re := fun _ _ => rfl
    rw [u _ ck', u _ ck, ← hS, ← hT]
    obtain ⟨δ, hδ⟩ : ∃ δ, δ = S.getD 0 0 - T.getD 0 0 := ⟨_, rfl⟩
    rw [← hδ]
    have : ifftL S = (ifftL T).map (· + δ / a.length) := by
      apply list_ext_getD (by rw [List.length_map, ifftL_length, ifftL_length, lS, lT])
      intro k hk
      rw [ifftL_length, lS] at hk
      have e : ((ifftL T).map (· + δ / a.length)).getD k 0 = (ifftL T).getD k 0 + δ / a.length := by
        rw [List.getD_eq_getElem _ _ (by rw [List.length_map, ifftL_length, lT]; exact hk), List.getElem_map,
          List.getD_eq_getElem _ _ (by rw [ifftL_length, lT]; exact hk)]
      rw [e, ifftL_getD _ _ (by omega), ifftL_getD _ _ (by omega), lS, lT, ← add_div]
      congr 1
      obtain ⟨n, hn⟩ : ∃ n, a.length = n + 1 := ⟨a.length - 1, by omega⟩
      rw [hn, Finset.sum_range_succ', Finset.sum_range_succ']
      have : ∀ i ∈ Finset.range n, S.getD (i + 1) 0 * Complex.exp (2 * Real.pi * Complex.I * ((i + 1 : Nat) : ℂ) * k / ((n + 1 : Nat) : ℂ)) =
          T.getD (i + 1) 0 * Complex.exp (2 * Real.pi * Complex.I * ((i + 1 : Nat) : ℂ) * k / ((n + 1 : Nat) : ℂ)) := by
        intro i hi
        have := Finset.mem_range.1 hi
        rw [hST (i + 1) (by omega) (by omega)]
      rw [Finset.sum_congr rfl this, hδ]
      simp
    rw [this, List.map_map, List.map_map]
    apply List.map_congr_left
    intro z _
    simp
  · intro h0
    have hF : (fftL (cx a)).getD 0 0 = 0 := by
      rw [fftL_getD _ _ (by simp [cx]; omega)]
      have e : ∀ i ∈ Finset.range (cx a).length, (cx a).getD i 0 * Complex.exp (-(2 * Real.pi * Complex.I * i * ((0 : Nat) : ℂ) / (cx a).length)) =
          ((a.getD i 0 : ℝ) : ℂ) := by
        intro i _
        simp only [cx, List.getD_eq_getElem?_getD, List.getElem?_map]
        cases a[i]? <;> simp
      rw [Finset.sum_congr rfl e]
      have hsum : ∀ (l : List ℝ), ∑ i ∈ Finset.range l.length, l.getD i 0 = l.sum := by
        intro l
        induction l with
        | nil => rfl
        | cons x l ih =>
          rw [List.length_cons, Finset.sum_range_succ', List.sum_cons, ← ih, add_comm]
          rfl
      rw [← Complex.ofReal_sum]
      have := hsum a
      simp only [cx, List.length_map]
      rw [this, h0]; rfl
    rw [eS, eT, hF]
    simp

/-! ### The column and its upper part -/

theorem strat1_thin {rows : List (Row ℝ)} {last : Row ℝ} (hv : Valid5 rows) (hl : rows.getLast? = some last) (h0 : last.thk = 0) :
    ∀ s ∈ (stratify5 rows).dropLast, strat1 s = [s] := by
  intro s hs
  rw [split_last hl, stratify5_half _ _ h0, List.dropLast_concat] at hs
  obtain ⟨r, hr, hs⟩ := List.mem_flatMap.1 hs
  obtain ⟨q, hq, rfl⟩ := List.mem_map.1 hs
  have hpos := hv.pos r (List.dropLast_subset rows hr)
  obtain ⟨_, g2, _⟩ := stratifyLayer_spec (toLRow r) (hv.thk_pos r hr) hpos.1
  obtain ⟨e1, e2, e3, e4⟩ := g2 q hq
  have : toLRow (ofLRow q) = q := rfl
  unfold strat1
  rw [this, stratifyLayer_thin q (by rw [e1]; exact e4)]
  rfl

theorem take_dropLast_of_lt {α : Type} (l : List α) (j : Nat) (h : j < l.length) : l.take j = l.dropLast.take j := by
  rw [List.dropLast_eq_take, List.take_take, min_eq_left (by omega)]

theorem cut_valid {p : List (Row ℝ)} (hp : Valid5 p) (j : Nat) (hj : j < p.length) (base : Row ℝ) (hb : Valid5 [base]) :
    Valid5 (p.take j ++ [base]) := by
  have hm : ∀ r ∈ p.take j, r ∈ p.dropLast := by
    intro r hr
    rw [take_dropLast_of_lt p j hj] at hr
    exact List.mem_of_mem_take hr
  have hm' : ∀ r ∈ p.take j ++ [base], r ∈ p.take j ∨ r ∈ [base] := fun r hr => List.mem_append.1 hr
  refine ⟨by simp, ?_, ?_, ?_, ?_, ?_, ?_⟩
  · intro r hr; rw [List.dropLast_concat] at hr; exact hp.thk_pos r (hm r hr)
  · intro r hr; rcases hm' r hr with h | h
    · exact hp.thk_nonneg r (List.mem_of_mem_take h)
    · exact hb.thk_nonneg r h
  · intro r hr; rcases hm' r hr with h | h
    · exact hp.pos r (List.mem_of_mem_take h)
    · exact hb.pos r h
  · intro r hr; rcases hm' r hr with h | h
    · exact hp.mat_int r (List.mem_of_mem_take h)
    · exact hb.mat_int r h
  · intro r hr; rw [List.dropLast_concat] at hr; exact hp.mat_pos r (hm r hr)
  · intro r hr; rcases hm' r hr with h | h
    · exact hp.mat_nonneg r (List.mem_of_mem_take h)
    · exact hb.mat_nonneg r h

theorem dtOf_zip (x : Rec ℝ) (a : List ℝ) (h2 : 2 ≤ x.length) (h : a.length = x.length) : dtOf ((x.map Prod.fst).zip a) = dtOf x := by
  match x, a, h2, h with
  | p :: q :: r, a :: b :: c, _, _ => rfl
  | [p], _, h2, _ => simp at h2
  | _ :: _ :: _, [_], _, h => simp at h
  | _ :: _ :: _, [], _, h => simp at h

/-- What both calculations yield. -/
theorem cut_core {rows : List (Row ℝ)} {x : Rec ℝ} {b : Boundary} {dt : ℝ} {last base : Row ℝ} {o : SimOut} (hv : Valid5 rows)
    (hl : rows.getLast? = some last) (h0 : last.thk = 0) (h2 : 2 ≤ x.length) (hodd : x.length % 2 = 1) (hdt : dtOf x = .ok dt)
    (hd0 : 0 < dt) (hr : 2 ≤ rows.length) (ho : linearSim rows x b = .ok o) (hb : Valid5 [base]) (hb0 : base.thk = 0) {j : Nat}
    (hj : 0 < j) (hjl : j < o.profile.length) {aj : List ℝ} (haj : o.a[j]? = some aj) :
    ∃ (o' : SimOut) (r r' : Resp × List ℝ), linearSim (o.profile.take j ++ [base]) ((x.map Prod.fst).zip aj) .rigid = .ok o' ∧
      o'.profile = o.profile.take j ++ [base] ∧
      linResp dt b ((x.map Prod.snd).map (· / 2)) (65 / 100) (o.profile.map Row.thk) (o.profile.map fun r => r.rho * r.vs ^ 2)
        (o.profile.map Row.xi) (o.profile.map Row.rho) = .ok r ∧
      linResp dt .rigid (aj.map (· / 2)) (65 / 100) ((o.profile.take j ++ [base]).map Row.thk)
        ((o.profile.take j ++ [base]).map fun r => r.rho * r.vs ^ 2)
        ((o.profile.take j ++ [base]).map Row.xi) ((o.profile.take j ++ [base]).map Row.rho) = .ok r' ∧
      o.a = r.1.accel ∧ o.v = r.1.veloc ∧ o.d = r.1.displ ∧ o.gamma = r.1.strain ∧
      o.tau = calcStress (o.profile.map fun r => r.rho * r.vs ^ 2) (o.profile.map Row.xi) r.1.strain ∧
      o'.a = r'.1.accel ∧ o'.v = r'.1.veloc ∧ o'.d = r'.1.displ ∧ o'.gamma = r'.1.strain ∧
      o'.tau = calcStress ((o.profile.take j ++ [base]).map fun r => r.rho * r.vs ^ 2) ((o.profile.take j ++ [base]).map Row.xi) r'.1.strain ∧
      aj.length = x.length ∧
      ∀ k, k ≤ j → ∃ ak ak', o.a[k]? = some ak ∧ o'.a[k]? = some ak' ∧ ∃ c : ℝ, ak' = ak.map (· + c) ∧
        ((x.map Prod.snd).sum = 0 → c = 0) := by
  obtain ⟨hprof, pm, r, hp, hpd, hNa, hNodd, h3, hres, hH, -, -, ta, tv, td, tg, tt⟩ :=
    linearSim_tf hv hl h0 h2 hdt hd0.ne' (fun _ => hr) ho _ rfl
  obtain ⟨sv, sl, _, _, s2⟩ := stratify5_valid hv hl h0
  have hthin := strat1_thin hv hl h0
  rw [← hprof] at hres hH tt sv sl hthin
  obtain ⟨pm', hp', _, _, _, _, he, _, _, hu⟩ := prepMotion_ok x h2
  rw [hp] at hp'; cases hp'
  have hev : pm.even = false := by
    cases h : pm.even with
    | false => rfl
    | true => have := he.1 h; omega
  have un : ∀ {α : Type} (c : List α), unpad pm.even c = c := by
    intro α c; rw [hev]; rfl
  have unm : ∀ (c : List (List ℝ)), c.map (unpad pm.even) = c := by
    intro c
    conv_rhs => rw [← List.map_id c]
    exact List.map_congr_left fun y _ => un y
  rw [un] at hu
  rw [unm] at ta tv td tg tt
  rw [hu] at hres hNa
  rw [if_neg (by omega)] at hNa hH hNodd h3
  obtain ⟨a1, a2, -, -, -, -, a7, a8, -⟩ := linResp_ok (by simpa using hodd) (by simp) (by simp) (by simp) hres
  have hajm : aj ∈ r.1.accel := by rw [← ta]; exact List.mem_of_getElem? haj
  have hajl : aj.length = x.length := by rw [a8.2 aj hajm]; simp
  -- the upper part
  set sub := o.profile.take j ++ [base] with hsub
  have sv' : Valid5 sub := cut_valid sv j hjl base hb
  have sl' : sub.getLast? = some base := by simp [hsub]
  have hsl : sub.length = j + 1 := by simp [hsub]; omega
  have hst : stratify5 sub = sub := by
    rw [hsub, stratify5_half _ _ hb0, flatMap_self]
    intro s hs
    rw [take_dropLast_of_lt _ j hjl] at hs
    exact hthin s (List.mem_of_mem_take hs)
  set x' := (x.map Prod.fst).zip aj with hx'
  have hx'l : x'.length = x.length := by simp [hx', hajl]
  have hx's : x'.map Prod.snd = aj := List.map_snd_zip (by simp [hajl])
  obtain ⟨o', ho', -⟩ := C71_linear_partial (b := .rigid) (x := x') sv' sl' hb0 (by omega) (by rw [dtOf_zip x aj h2 hajl]; exact hdt) hd0.ne'
    (fun _ => by omega)
  obtain ⟨hprof', qm, r', hq, hqd, hNq, _, _, hres', hH', -, -, ta', tv', td', tg', tt'⟩ :=
    linearSim_tf sv' sl' hb0 (by omega) (by rw [dtOf_zip x aj h2 hajl]; exact hdt) hd0.ne' (fun _ => by omega) ho' _ rfl
  rw [hst] at hprof' hres' hH' tt'
  obtain ⟨qm', hq', _, _, _, _, he', _, _, hu'⟩ := prepMotion_ok x' (by omega)
  rw [hq] at hq'; cases hq'
  have hev' : qm.even = false := by
    cases h : qm.even with
    | false => rfl
    | true => have := he'.1 h; omega
  have un' : ∀ {α : Type} (c : List α), unpad qm.even c = c := by
    intro α c; rw [hev']; rfl
  have unm' : ∀ (c : List (List ℝ)), c.map (unpad qm.even) = c := by
    intro c
    conv_rhs => rw [← List.map_id c]
    exact List.map_congr_left fun y _ => un' y
  rw [un', hx's] at hu'
  rw [unm'] at ta' tv' td' tg' tt'
  rw [hu'] at hres'
  rw [if_neg (by omega), hx'l] at hH'
  obtain ⟨b1, b2, -, -, -, -, b7, b8, -⟩ := linResp_ok (by simp [hajl]; omega) (by simp) (by simp) (by simp) hres'
  refine ⟨o', r, r', ho', hprof', hres, hres', ta, tv, td, tg, tt, ta', tv', td', tg', tt', hajl, ?_⟩
  intro k hk
  have hD : ∀ l ∈ o.profile.map rowLay, DampedLay l := by
    intro l hl
    obtain ⟨q, hq, rfl⟩ := List.mem_map.1 hl
    obtain ⟨p1, p2, p3⟩ := sv.pos q hq
    exact ⟨sv.thk_nonneg q hq, p1, p3, p2⟩
  have hDb : DampedLay (rowLay base) := by
    obtain ⟨p1, p2, p3⟩ := hb.pos base (by simp)
    exact ⟨hb0.ge, p1, p3, p2⟩
  have hsubl : sub.map rowLay = (o.profile.map rowLay).take j ++ [rowLay base] := by simp [hsub, List.map_take]
  have hNpos : (0 : ℝ) < x.length := by exact_mod_cast (by omega : 0 < x.length)
  obtain ⟨cj, j1, j2, j3, j4, -⟩ := hMatrix_get hodd (by omega) hd0.ne' hH j (by simpa using hjl)
  obtain ⟨ck, k1, k2, k3, k4, -⟩ := hMatrix_get hodd (by omega) hd0.ne' hH k (by simp; omega)
  obtain ⟨ck', m1, m2, m3, m4, -⟩ := hMatrix_get hodd (by omega) hd0.ne' hH' k (by simp; omega)
  have eaj : aj = accelCol (fftL (cx ((x.map Prod.snd).map (· / 2)))) cj := by
    rw [ta, a2, List.getElem?_map, j1] at haj
    exact (Option.some.inj haj).symm
  have hal : ((x.map Prod.snd).map (· / 2)).length = x.length := by simp
  obtain ⟨c, c1, c2⟩ := cut_accel (a := (x.map Prod.snd).map (· / 2)) (cj := cj) (ck := ck) (ck' := ck') (by rw [hal]; exact hodd)
    (by rw [hal, j2]) (by rw [hal, k2]) (by rw [hal, m2]) j3 k3 m3 (by
      rw [hal]
      intro m hm0 hm
      obtain ⟨row, w1, w2⟩ := j4 m hm0 hm
      obtain ⟨row2, w3, w4⟩ := k4 m hm0 hm
      obtain ⟨row', w5, w6⟩ := m4 m hm0 hm
      rw [w1] at w3
      have := Except.ok.inj w3
      subst this
      rw [hsubl] at w5
      rw [List.getD_eq_getElem?_getD, w2, List.getD_eq_getElem?_getD (l := ck'), w6, List.getD_eq_getElem?_getD (l := ck), w4]
      exact cut_row (by positivity) hD hDb hj (by simpa using hjl) w1 w5 k hk)
  refine ⟨_, _, by rw [ta, a2, List.getElem?_map, k1]; rfl, by rw [ta', b2, List.getElem?_map, m1]; rfl, c, ?_, ?_⟩
  · rw [← eaj] at c1
    exact c1
  · intro hs
    apply c2
    have : ∀ l : List ℝ, (l.map (· / 2)).sum = l.sum / 2 := by
      intro l
      induction l with
      | nil => simp
      | cons a l ih => rw [List.map_cons, List.sum_cons, ih, List.sum_cons]; ring
    rw [this, hs, zero_div]

/-- C221, accelerations: a column calculated as a whole (with either boundary), cut at the top of any layer, and its upper part
calculated once more on a rigid base, driven by the acceleration reported there for the whole column.  The accelerations of the
layers above are those reported for the whole column up to a constant, which is zero for a record with mean zero. -/
theorem C221_accel {rows : List (Row ℝ)} {x : Rec ℝ} {b : Boundary} {dt : ℝ} {last base : Row ℝ} {o : SimOut} (hv : Valid5 rows)
    (hl : rows.getLast? = some last) (h0 : last.thk = 0) (h2 : 2 ≤ x.length) (hodd : x.length % 2 = 1) (hdt : dtOf x = .ok dt)
    (hd0 : 0 < dt) (hr : 2 ≤ rows.length) (ho : linearSim rows x b = .ok o) (hb : Valid5 [base]) (hb0 : base.thk = 0) {j : Nat}
    (hj : 0 < j) (hjl : j < o.profile.length) {aj : List ℝ} (haj : o.a[j]? = some aj) :
    ∃ o' : SimOut, linearSim (o.profile.take j ++ [base]) ((x.map Prod.fst).zip aj) .rigid = .ok o' ∧
      ∀ k, k ≤ j → ∃ ak ak', o.a[k]? = some ak ∧ o'.a[k]? = some ak' ∧ ∃ c : ℝ, ak' = ak.map (· + c) ∧
        ((x.map Prod.snd).sum = 0 → c = 0) := by
  obtain ⟨o', r, r', e, -, -, -, -, -, -, -, -, -, -, -, -, -, -, h⟩ := cut_core hv hl h0 h2 hodd hdt hd0 hr ho hb hb0 hj hjl haj
  exact ⟨o', e, h⟩

theorem strainCols_take : ∀ (j : Nat) (h : List ℝ) (d : List (List ℝ)) (z : ℝ), j < h.length → h.length = d.length →
    strainCols (h.take j ++ [z]) (d.take (j + 1)) = (strainCols h d).take j
  | 0, h, d, z, _, _ => by
    match d with
    | [] => rfl
    | [_] => rfl
    | _ :: _ :: _ => rfl
  | j + 1, h, d, z, hj, hl => by
    match h, d, hj, hl with
    | a :: b :: h, u :: v :: d, hj, hl =>
      have := strainCols_take j (b :: h) (v :: d) z (by simpa using hj) (by simpa using hl)
      show _ :: strainCols ((b :: h).take j ++ [z]) ((v :: d).take (j + 1)) = _ :: (strainCols (b :: h) (v :: d)).take j
      rw [this]
    | [a], [u], hj, _ => simp at hj
    | _ :: _ :: _, [_], _, hl => simp at hl
    | [_], _ :: _ :: _, _, hl => simp at hl
    | _ :: _, [], _, hl => simp at hl
    | [], _, hj, _ => simp at hj

/-- C221, all results: for a record with mean zero the upper part has the accelerations, velocities, displacements, strains and
stresses that are reported for it in the whole column. -/
theorem C221_all {rows : List (Row ℝ)} {x : Rec ℝ} {b : Boundary} {dt : ℝ} {last base : Row ℝ} {o : SimOut} (hv : Valid5 rows)
    (hl : rows.getLast? = some last) (h0 : last.thk = 0) (h2 : 2 ≤ x.length) (hodd : x.length % 2 = 1) (hdt : dtOf x = .ok dt)
    (hd0 : 0 < dt) (hr : 2 ≤ rows.length) (hmean : (x.map Prod.snd).sum = 0) (ho : linearSim rows x b = .ok o) (hb : Valid5 [base])
    (hb0 : base.thk = 0) {j : Nat} (hj : 0 < j) (hjl : j < o.profile.length) {aj : List ℝ} (haj : o.a[j]? = some aj) :
    ∃ o' : SimOut, linearSim (o.profile.take j ++ [base]) ((x.map Prod.fst).zip aj) .rigid = .ok o' ∧
      o'.profile.dropLast = o.profile.take j ∧ o'.a = o.a.take (j + 1) ∧ o'.v = o.v.take (j + 1) ∧ o'.d = o.d.take (j + 1) ∧
      o'.gamma = o.gamma.take j ∧ o'.tau = o.tau.take j := by
  obtain ⟨o', r, r', e, ep, hres, hres', ta, tv, td, tg, tt, ta', tv', td', tg', tt', hajl, h⟩ :=
    cut_core hv hl h0 h2 hodd hdt hd0 hr ho hb hb0 hj hjl haj
  obtain ⟨a1, a2, a3, a4, a5, a6, a7, a8, a9, a10, a11, -⟩ := linResp_ok (by simpa using hodd) (by simp) (by simp) (by simp) hres
  obtain ⟨b1, b2, b3, b4, b5, b6, b7, b8, b9, b10, b11, -⟩ := linResp_ok (by simp [hajl]; omega) (by simp) (by simp) (by simp) hres'
  have hA : r'.1.accel = r.1.accel.take (j + 1) := by
    apply List.ext_getElem?
    intro k
    rw [List.getElem?_take]
    by_cases hk : k ≤ j
    · obtain ⟨ak, ak', e1, e2, c, e3, e4⟩ := h k hk
      rw [if_pos (by omega), ← ta, ← ta', e1, e2, e3, e4 hmean]
      simp
    · rw [if_neg (by omega), List.getElem?_eq_none]
      rw [b8.1]; simp; omega
  have hV : r'.1.veloc = r.1.veloc.take (j + 1) := by rw [b3, a3, hA, List.map_take]
  have hDd : r'.1.displ = r.1.displ.take (j + 1) := by
    rw [b4, a4, hA, List.map_take]
    simp [hajl]
  have hS : r'.1.strain = r.1.strain.take j := by
    rw [b5, a5, hDd, List.map_append, List.map_take]
    exact strainCols_take j _ _ _ (by simpa using hjl) (by rw [a10.1])
  refine ⟨o', e, by rw [ep, List.dropLast_concat], by rw [ta', ta, hA], by rw [tv', tv, hV], by rw [td', td, hDd],
    by rw [tg', tg, hS], ?_⟩
  rw [tt', tt, hS]
  unfold calcStress
  rw [List.map_append, List.map_append, List.map_singleton, List.map_singleton, List.dropLast_concat, List.dropLast_concat,
    List.map_take, List.map_take, take_dropLast_of_lt (o.profile.map fun r => r.rho * r.vs ^ 2) j (by simpa using hjl),
    take_dropLast_of_lt (o.profile.map Row.xi) j (by simpa using hjl),
    ← List.take_zipWith, ← List.take_zipWith]

/-- A column on a half space, cut at the bottom of its first layer. -/
example : ∃ o o' aj, linearSim [demoRow, { demoRow with thk := 0 }] [(0, 1), (1, -2), (2, 1)] .elastic = .ok o ∧ o.a[1]? = some aj ∧
    linearSim (o.profile.take 1 ++ [{ demoRow with thk := 0 }]) [(0, aj.getD 0 0), (1, aj.getD 1 0), (2, aj.getD 2 0)] .rigid = .ok o' ∧
      o'.a = o.a.take 2 ∧ o'.tau = o.tau.take 1 := by
  have hv := demoSim_valid
  have hb : Valid5 [{ demoRow with thk := 0 }] := by
    refine ⟨by simp, by simp, ?_, ?_, ?_, by simp, ?_⟩
    · intro r hr; exact hv.thk_nonneg r (List.mem_cons_of_mem _ hr)
    · intro r hr; exact hv.pos r (List.mem_cons_of_mem _ hr)
    · intro r hr; exact hv.mat_int r (List.mem_cons_of_mem _ hr)
    · intro r hr; exact hv.mat_nonneg r (List.mem_cons_of_mem _ hr)
  have hdt : dtOf [((0 : ℝ), (1 : ℝ)), (1, -2), (2, 1)] = .ok 1 := by simp [dtOf]
  obtain ⟨o, ho, hp, hf, -⟩ := C71_linear_partial (b := .elastic) hv rfl rfl (x := [(0, 1), (1, -2), (2, 1)]) (by simp) hdt one_ne_zero
    (fun _ => by simp)
  obtain ⟨_, _, _, _, s2⟩ := stratify5_valid hv rfl rfl
  have hn : 1 < o.profile.length := by rw [hp]; exact s2 (by simp)
  obtain ⟨aj, haj, hl⟩ : ∃ aj, o.a[1]? = some aj ∧ aj.length = 3 := by
    obtain ⟨_, pm, r, q1, _, q3, q4, _, hres, _, -, -, ta, -⟩ := linearSim_tf hv rfl rfl (by simp) hdt one_ne_zero (fun _ => by simp) ho _ rfl
    obtain ⟨_, _, _, _, _, _, _, a8, -⟩ := linResp_ok (by rw [q3]; exact q4) (by simp) (by simp) (by simp) hres
    rw [hp] at hn
    have hlt : 1 < r.1.accel.length := by rw [a8.1]; simpa using hn
    refine ⟨_, by rw [ta, List.getElem?_map, List.getElem?_eq_getElem hlt]; rfl, ?_⟩
    obtain ⟨pm', h', _, _, _, _, he, hlen, _, _⟩ := prepMotion_ok [((0 : ℝ), (1 : ℝ)), (1, -2), (2, 1)] (by simp)
    rw [q1] at h'; cases h'
    have : pm.even = false := by
      cases h : pm.even with
      | false => rfl
      | true => have := he.1 h; simp at this
    rw [unpad_length, this, a8.2 _ (List.getElem_mem hlt), hlen]
    simp
  obtain ⟨o', h1, _, h3, _, _, _, h4⟩ := C221_all hv rfl rfl (by simp) (by simp) hdt one_pos (by simp) (by norm_num) ho hb rfl one_pos hn haj
  refine ⟨o, o', aj, ho, haj, ?_, h3, h4⟩
  match aj, hl with
  | [u, v, w], _ => exact h1

end Verif
