import Verif.Model.Amplify
import Verif.Proof.Fourier
import Verif.Props.MotionObj

/-! Lemmas about the frequency-domain amplification. -/

set_option linter.unusedSectionVars false
set_option linter.unusedVariables false

open Complex ComplexConjugate

namespace Verif

open Spec (Hermitian)

theorem mapM_ok {α β : Type} (f : α → Except PyErr β) :
    ∀ (l : List α) (r : List β), l.mapM f = .ok r →
      r.length = l.length ∧ ∀ (i : Nat) x, l[i]? = some x → ∃ y, f x = .ok y ∧ r[i]? = some y := by
  intro l
  induction l with
  | nil =>
    intro r h
    rw [List.mapM_nil] at h
    cases h
    exact ⟨rfl, by intro i x hx; simp at hx⟩
  | cons a l ih =>
    intro r h
    rw [List.mapM_cons] at h
    cases ha : f a with
    | error e => rw [ha] at h; cases h
    | ok b =>
      rw [ha] at h
      cases hl : l.mapM f with
      | error e => rw [hl] at h; cases h
      | ok bs =>
        rw [hl] at h
        cases h
        obtain ⟨h1, h2⟩ := ih bs hl
        refine ⟨by simp [h1], ?_⟩
        intro i x hx
        cases i with
        | zero => simp at hx; exact ⟨b, by rw [← hx]; exact ha, by simp⟩
        | succ i => simp at hx; simpa using h2 i x hx

theorem mapM_of_forall {α β : Type} (f : α → Except PyErr β) (g : α → β) :
    ∀ l : List α, (∀ x ∈ l, f x = .ok (g x)) → l.mapM f = .ok (l.map g) := by
  intro l
  induction l with
  | nil => intro _; rfl
  | cons a l ih =>
    intro h
    rw [List.mapM_cons, h a (by simp), ih (fun x hx => h x (by simp [hx]))]
    rfl

/-! ## The frequency grid -/

/-- The number of one-sided frequencies for a record of `n` samples. -/
theorem freqInterval_ok {x : Rec ℝ} {fi : FreqInt} (h : freqInterval x = .ok fi) :
    2 ≤ x.length ∧ fi.n = x.length ∧ (fi.half = if fi.n % 2 = 1 then (fi.n + 1) / 2 else fi.n / 2 + 1) ∧
    fi.f.length = fi.half ∧ (∀ m < fi.half, fi.f[m]? = some ((m + 1 : ℕ) * fi.df)) ∧ fi.fmax = fi.half * fi.df ∧
    ∃ p q rest, x = p :: q :: rest ∧ q.1 - p.1 ≠ 0 ∧ fi.df = 1 / (q.1 - p.1) / x.length := by
  match x, h with
  | p :: q :: rest, h =>
    unfold freqInterval at h
    simp only at h
    by_cases hd : q.1 - p.1 = 0
    · rw [if_pos hd] at h; cases h
    · rw [if_neg hd] at h
      cases h
      refine ⟨by simp, rfl, rfl, linspace_length _ _ _, ?_, rfl, p, q, rest, rfl, hd, rfl⟩
      intro m hm
      simp only at hm ⊢
      rw [linspace_getElem? _ _ _ _ hm]
      generalize hhalf : (if (p :: q :: rest).length % 2 = 1 then ((p :: q :: rest).length + 1) / 2
        else (p :: q :: rest).length / 2 + 1) = half at hm ⊢
      generalize 1 / (q.1 - p.1) / ((p :: q :: rest).length : ℝ) = df
      have h2 : 2 ≤ half := by
        rw [← hhalf]; simp only [List.length_cons]; split_ifs <;> omega
      have hne : ((half : ℝ) - 1) ≠ 0 := cast_sub_one_ne h2
      congr 1
      rw [show (half : ℝ) * df - df = df * ((half : ℝ) - 1) by ring, mul_div_assoc, div_self hne]
      push_cast; ring

theorem freqInterval_congr {x y : Rec ℝ} (h : x.map Prod.fst = y.map Prod.fst) : freqInterval x = freqInterval y := by
  have hl : x.length = y.length := by simpa using congrArg List.length h
  match x, y, h with
  | [], [], _ => rfl
  | [_], [_], _ => rfl
  | p :: q :: r, p' :: q' :: r', h =>
    simp only [List.map_cons, List.cons.injEq] at h
    unfold freqInterval
    simp only [List.length_cons] at hl ⊢
    have : r.length = r'.length := by omega
    rw [h.1, h.2.1, this]
  | [], _ :: _, h => simp at h
  | _ :: _, [], h => simp at h
  | [_], _ :: _ :: _, h => simp at h
  | _ :: _ :: _, [_], h => simp at h

theorem everySecond_map {α β : Type} (g : α → β) : ∀ l : List α, everySecond (l.map g) = (everySecond l).map g
  | [] => rfl
  | [_] => rfl
  | _ :: _ :: rest => by simp [everySecond, everySecond_map g rest]

/-- The result of the down-sampling loop: some number of halvings, with the grid of the
resulting record, whose highest frequency is covered. -/
theorem downsample_ok (fm : ℝ) (x : Rec ℝ) (fi : FreqInt) (h0 : freqInterval x = .ok fi) (x' : Rec ℝ)
    (fi' : FreqInt) (h : downsample fm x fi = .ok (x', fi')) :
    (∃ k : Nat, x' = everySecond^[k] x) ∧ freqInterval x' = .ok fi' ∧ ¬fm < fi'.fmax := by
  rw [downsample] at h
  by_cases c : fm < fi.fmax
  · rw [if_pos c] at h
    by_cases hl : (everySecond x).length ≤ 1
    · rw [dif_pos hl] at h; cases h
    · rw [dif_neg hl] at h
      cases hf : freqInterval (everySecond x) with
      | error e => rw [hf] at h; cases h
      | ok f2 =>
        rw [hf] at h
        obtain ⟨⟨k, hk⟩, h1, h2⟩ := downsample_ok fm (everySecond x) f2 hf x' fi' h
        exact ⟨⟨k + 1, by rw [hk, Function.iterate_succ_apply]⟩, h1, h2⟩
  · rw [if_neg c] at h
    cases h
    exact ⟨⟨0, rfl⟩, h0, c⟩
termination_by x.length
decreasing_by rw [everySecond_length] at *; omega

/-- The loop looks at the times only. -/
theorem downsample_congr (fm : ℝ) (x y : Rec ℝ) (fi : FreqInt) (h : x.map Prod.fst = y.map Prod.fst) (x' : Rec ℝ)
    (fi' : FreqInt) (hx : downsample fm x fi = .ok (x', fi')) :
    ∃ (k : Nat), x' = everySecond^[k] x ∧ downsample fm y fi = .ok (everySecond^[k] y, fi') := by
  rw [downsample] at hx ⊢
  by_cases c : fm < fi.fmax
  · rw [if_pos c] at hx ⊢
    have he : (everySecond x).map Prod.fst = (everySecond y).map Prod.fst := by
      rw [← everySecond_map, ← everySecond_map, h]
    have hlen : (everySecond x).length = (everySecond y).length := by simpa using congrArg List.length he
    by_cases hl : (everySecond x).length ≤ 1
    · rw [dif_pos hl] at hx; cases hx
    · rw [dif_neg hl] at hx
      rw [dif_neg (by rw [← hlen]; exact hl)]
      rw [← freqInterval_congr he]
      cases hf : freqInterval (everySecond x) with
      | error e => rw [hf] at hx; cases hx
      | ok f2 =>
        rw [hf] at hx
        simp only
        obtain ⟨k, h1, h2⟩ := downsample_congr fm (everySecond x) (everySecond y) f2 he x' fi' hx
        exact ⟨k + 1, by rw [h1, Function.iterate_succ_apply], by rw [h2, Function.iterate_succ_apply]⟩
  · rw [if_neg c] at hx ⊢
    cases hx
    exact ⟨0, rfl, rfl⟩
termination_by x.length
decreasing_by rw [everySecond_length] at *; omega

theorem downsample_self {fm : ℝ} {x : Rec ℝ} {fi : FreqInt} (h : ¬fm < fi.fmax) : downsample fm x fi = .ok (x, fi) := by
  rw [downsample, if_neg h]

/-! ## One-sided and two-sided transfer functions -/

theorem realFirst_length (l : List ℂ) : (realFirst l).length = l.length := by
  cases l <;> simp [realFirst]

theorem realFirst_get (l : List ℂ) (k : Nat) (hk : 0 < k) : (realFirst l)[k]? = l[k]? := by
  cases l with
  | nil => rfl
  | cons a l =>
    cases k with
    | zero => omega
    | succ k => simp [realFirst]

theorem realFirst_zero (l : List ℂ) (z : ℂ) (h : (realFirst l)[0]? = some z) : z.im = 0 := by
  cases l with
  | nil => simp [realFirst] at h
  | cons a l =>
    simp [realFirst] at h
    rw [← h]; simp

theorem realLast_length (l : List ℂ) : (realLast l).length = l.length := by
  rcases List.eq_nil_or_concat l with rfl | ⟨t, z, rfl⟩
  · rfl
  · simp [realLast]

theorem realLast_get (l : List ℂ) (k : Nat) (hk : k + 1 < l.length) : (realLast l)[k]? = l[k]? := by
  rcases List.eq_nil_or_concat l with rfl | ⟨t, z, rfl⟩
  · simp at hk
  · simp [List.concat_eq_append] at hk ⊢
    simp [realLast, List.getElem?_append, hk]

theorem realLast_last (l : List ℂ) (k : Nat) (z : ℂ) (hk : k + 1 = l.length) (h : (realLast l)[k]? = some z) :
    z.im = 0 := by
  rcases List.eq_nil_or_concat l with rfl | ⟨t, w, rfl⟩
  · simp at hk
  · simp [List.concat_eq_append] at hk
    simp [realLast, List.getElem?_append, hk] at h
    rw [← h]; simp

/-- `tfSingle` has one value per frequency; the first is real, and the last too for an
even record length; the others are amplitude times the phase factor. -/
theorem tfSingle_ok {tab : TfTab} {n : Nat} {f : List ℝ} {ss : List ℂ} (h : tfSingle tab n f = .ok ss) :
    ss.length = f.length ∧ (∀ z, ss[0]? = some z → z.im = 0) ∧
    (n % 2 = 0 → ∀ z, ss[f.length - 1]? = some z → z.im = 0) ∧
    ∀ (k : Nat) (g : ℝ), 0 < k → f[k]? = some g → (n % 2 = 0 → k + 1 < f.length) →
      ∃ a p : ℝ, npInterp (tab.map fun r => (r.1, r.2.1)) g = .ok a ∧
        npInterp (tab.map fun r => (r.1, r.2.2)) g = .ok p ∧ ss[k]? = some ((a : ℂ) * exp (I * p)) := by
  unfold tfSingle at h
  cases ha : f.mapM (npInterp (tab.map fun r => (r.1, r.2.1))) with
  | error e => rw [ha] at h; cases h
  | ok a =>
    cases hp : f.mapM (npInterp (tab.map fun r => (r.1, r.2.2))) with
    | error e => rw [ha, hp] at h; cases h
    | ok p =>
      rw [ha, hp] at h
      obtain ⟨hal, hag⟩ := mapM_ok _ _ _ ha
      obtain ⟨hpl, hpg⟩ := mapM_ok _ _ _ hp
      set base : List ℂ := List.zipWith (fun (x y : ℝ) => (x : ℂ) * exp (I * y)) a p with hbase
      have hbl : base.length = f.length := by simp [hbase, hal, hpl]
      have hs : ss = if n % 2 = 0 then realLast (realFirst base) else realFirst base := by
        cases h; rfl
      have hval : ∀ (k : Nat) (g : ℝ), 0 < k → f[k]? = some g → ∃ a p : ℝ,
          npInterp (tab.map fun r => (r.1, r.2.1)) g = .ok a ∧
          npInterp (tab.map fun r => (r.1, r.2.2)) g = .ok p ∧
          (realFirst base)[k]? = some ((a : ℂ) * exp (I * p)) := by
        intro k g hk hg
        obtain ⟨a', ha1, ha2⟩ := hag k g hg
        obtain ⟨p', hp1, hp2⟩ := hpg k g hg
        refine ⟨a', p', ha1, hp1, ?_⟩
        rw [realFirst_get _ _ hk, hbase, List.getElem?_zipWith, ha2, hp2]
      by_cases hn : n % 2 = 0
      · rw [if_pos hn] at hs
        have hl : ss.length = f.length := by rw [hs, realLast_length, realFirst_length, hbl]
        have hlast : ∀ z, ss[f.length - 1]? = some z → z.im = 0 := by
          intro z hz
          have : 0 < f.length := by
            rcases Nat.eq_zero_or_pos f.length with h0 | h0
            · have : ss = [] := List.length_eq_zero_iff.mp (by rw [hl, h0])
              rw [this] at hz; simp at hz
            · exact h0
          rw [hs] at hz
          exact realLast_last _ (f.length - 1) z (by rw [realFirst_length, hbl]; omega) hz
        refine ⟨hl, ?_, fun _ => hlast, ?_⟩
        · intro z hz
          by_cases h1 : 1 < f.length
          · rw [hs, realLast_get _ _ (by rw [realFirst_length, hbl]; omega)] at hz
            exact realFirst_zero _ _ hz
          · apply hlast z
            rw [show f.length - 1 = 0 by omega]; exact hz
        · intro k g hk hg hk2
          obtain ⟨a', p', h1, h2, h3⟩ := hval k g hk hg
          refine ⟨a', p', h1, h2, ?_⟩
          rw [hs, realLast_get _ _ (by rw [realFirst_length, hbl]; exact hk2 hn), h3]
      · rw [if_neg hn] at hs
        refine ⟨by rw [hs, realFirst_length, hbl], ?_, fun h0 => absurd h0 hn, ?_⟩
        · intro z hz; rw [hs] at hz; exact realFirst_zero _ _ hz
        · intro k g hk hg _
          obtain ⟨a', p', h1, h2, h3⟩ := hval k g hk hg
          exact ⟨a', p', h1, h2, by rw [hs, h3]⟩

theorem mirror_get (tf : List ℂ) (m j : Nat) (hm : m ≤ tf.length) (hj : j + 1 < m) :
    (((tf.take m).drop 1).reverse.map (starRingEnd ℂ))[j]? = (tf[m - 1 - j]?).map (starRingEnd ℂ) := by
  have hL : ((tf.take m).drop 1).length = m - 1 := by simp [hm]
  rw [List.getElem?_map, List.getElem?_reverse (by rw [hL]; omega), hL, List.getElem?_drop, List.getElem?_take]
  rw [if_pos (by omega)]
  congr 2; omega

theorem tfDouble_get (n half : Nat) (tf : List ℂ) (hn : 2 ≤ n)
    (hh : half = if n % 2 = 1 then (n + 1) / 2 else n / 2 + 1) (hl : tf.length = half) :
    (tfDouble n half tf).length = n ∧ (∀ k < half, (tfDouble n half tf)[k]? = tf[k]?) ∧
    ∀ k, half ≤ k → k < n → (tfDouble n half tf)[k]? = (tf[n - k]?).map (starRingEnd ℂ) := by
  unfold tfDouble
  by_cases ho : n % 2 = 1
  · rw [if_pos ho] at hh
    simp only [if_pos ho]
    refine ⟨?_, ?_, ?_⟩
    · simp [hl]; omega
    · intro k hk; rw [List.getElem?_append_left (by omega)]
    · intro k h1 h2
      rw [List.getElem?_append_right (by omega), mirror_get _ _ _ (by omega) (by omega), hl]
      congr 2; omega
  · rw [if_neg ho] at hh
    simp only [if_neg ho]
    refine ⟨?_, ?_, ?_⟩
    · simp [hl]; omega
    · intro k hk; rw [List.getElem?_append_left (by omega)]
    · intro k h1 h2
      rw [List.getElem?_append_right (by omega), mirror_get _ _ _ (by omega) (by omega), hl]
      congr 2; omega

theorem tfDouble_hermitian (n half : Nat) (tf : List ℂ) (hn : 2 ≤ n)
    (hh : half = if n % 2 = 1 then (n + 1) / 2 else n / 2 + 1) (hl : tf.length = half)
    (h0 : ∀ z, tf[0]? = some z → z.im = 0) (h1 : n % 2 = 0 → ∀ z, tf[half - 1]? = some z → z.im = 0) :
    Hermitian (tfDouble n half tf) := by
  obtain ⟨hL, hlo, hhi⟩ := tfDouble_get n half tf hn hh hl
  have hhalf : 2 ≤ half ∧ half ≤ n := by rw [hh]; split_ifs <;> omega
  refine ⟨?_, ?_⟩
  · intro z hz; rw [hlo 0 (by omega)] at hz; exact h0 z hz
  · intro k z hk hz
    rw [hL]
    have hkn : k < n := by
      rw [← hL]
      by_contra hc
      rw [List.getElem?_eq_none (by omega)] at hz; cases hz
    by_cases c : k < half
    · rw [hlo k c] at hz
      by_cases c2 : half ≤ n - k
      · rw [hhi (n - k) c2 (by omega), show n - (n - k) = k by omega, hz]; rfl
      · have hk' : n < k + half := by omega
        have he : n % 2 = 0 := by
          by_contra ho
          rw [if_pos (by omega)] at hh; omega
        rw [if_neg (by omega)] at hh
        have hk2 : k = half - 1 := by omega
        have : n - k = k := by omega
        rw [this, hlo k c, hz]
        have := h1 he z (by rw [← hk2]; exact hz)
        rw [Complex.conj_eq_iff_im.mpr this]
    · rw [hhi k (by omega) hkn] at hz
      have hnk : n - k < half := by split_ifs at hh <;> omega
      rw [hlo (n - k) hnk]
      cases hw : tf[n - k]? with
      | none => rw [hw] at hz; cases hz
      | some w =>
        rw [hw] at hz
        simp only [Option.map_some, Option.some.injEq] at hz
        rw [← hz, Complex.conj_conj]

/-! ## Applying the transfer function -/

theorem zipWith_hermitian (op : ℂ → ℂ → ℂ) (hop : ∀ z w, conj (op z w) = op (conj z) (conj w)) {A B : List ℂ}
    (hl : A.length = B.length) (hA : Hermitian A) (hB : Hermitian B) : Hermitian (List.zipWith op A B) := by
  have hlen : (List.zipWith op A B).length = A.length := by simp [hl]
  refine ⟨?_, ?_⟩
  · intro z hz
    rw [List.getElem?_zipWith] at hz
    cases ha : A[0]? with
    | none => rw [ha] at hz; simp at hz
    | some a =>
      cases hb : B[0]? with
      | none => rw [ha, hb] at hz; simp at hz
      | some b =>
        rw [ha, hb] at hz
        simp only [Option.some.injEq] at hz
        have h1 := Complex.conj_eq_iff_im.mpr (hA.1 a ha)
        have h2 := Complex.conj_eq_iff_im.mpr (hB.1 b hb)
        rw [← hz, ← Complex.conj_eq_iff_im, hop, h1, h2]
  · intro k z hk hz
    rw [hlen]
    rw [List.getElem?_zipWith] at hz ⊢
    cases ha : A[k]? with
    | none => rw [ha] at hz; simp at hz
    | some a =>
      cases hb : B[k]? with
      | none => rw [ha, hb] at hz; simp at hz
      | some b =>
        rw [ha, hb] at hz
        simp only [Option.some.injEq] at hz
        rw [hA.2 k a hk ha]
        have := hB.2 k b hk hb
        rw [← hl] at this
        rw [this, ← hz, hop]

/-- Complex values of a real record. -/
abbrev cx (a : List ℝ) : List ℂ := a.map fun x : ℝ => (x : ℂ)

theorem cx_re (a : List ℝ) : (cx a).map Complex.re = a := by
  rw [List.map_map]
  conv_rhs => rw [← List.map_id a]
  apply List.map_congr_left; intro x _; simp

theorem applyTf_spec (deconv : Bool) (a : List ℝ) (tf : List ℂ) (hl : a.length = tf.length) (hH : Hermitian tf)
    (hz : deconv = true → 0 ∉ tf) :
    ∃ r, applyTf deconv a tf = .ok r ∧ r.length = a.length ∧
      fftL (cx r) = List.zipWith (fun z w => if deconv then z / w else z * w) (fftL (cx a)) tf := by
  have hA : (fftL (cx a)).length = tf.length := by rw [fftL_length]; simp [hl]
  set P := List.zipWith (fun z w => if deconv then z / w else z * w) (fftL (cx a)) tf with hP
  have hPH : Hermitian P := by
    apply zipWith_hermitian _ _ hA (fft_real_hermitian a) hH
    intro z w; cases deconv <;> simp
  refine ⟨(ifftL P).map Complex.re, ?_, ?_, ?_⟩
  · unfold applyTf
    simp only
    rw [if_neg (by rw [hA]; simp), if_neg (by intro hc; exact hz hc.1 hc.2)]
  · simp [ifftL_length, hP, fftL_length, hl]
  · rw [show cx ((ifftL P).map Complex.re) = ifftL P from ifft_hermitian_real hPH, fft_ifft]

theorem applyTf_inv {deconv : Bool} {a r : List ℝ} {tf : List ℂ} (h : applyTf deconv a tf = .ok r) :
    a.length = tf.length ∧ (deconv = true → 0 ∉ tf) := by
  unfold applyTf at h
  simp only at h
  by_cases c : (fftL (cx a)).length = tf.length
  · rw [if_neg (by rw [not_not]; exact c)] at h
    by_cases c2 : deconv = true ∧ 0 ∈ tf
    · rw [if_pos c2] at h; cases h
    · rw [fftL_length] at c
      exact ⟨by simpa using c, fun hd hm => c2 ⟨hd, hm⟩⟩
  · rw [if_pos c] at h; cases h

/-- A real record is determined by its spectrum. -/
theorem fft_inj {a b : List ℝ} (h : fftL (cx a) = fftL (cx b)) : a = b := by
  have := congrArg ifftL h
  rw [ifft_fft, ifft_fft] at this
  rw [← cx_re a, this, cx_re]

theorem zipWith_cancel (op op' : ℂ → ℂ → ℂ) (A tf : List ℂ) (hl : A.length = tf.length)
    (h : ∀ z, ∀ w ∈ tf, op' (op z w) w = z) : List.zipWith op' (List.zipWith op A tf) tf = A := by
  induction A generalizing tf with
  | nil => simp
  | cons a A ih =>
    cases tf with
    | nil => simp at hl
    | cons t tf =>
      simp only [List.zipWith_cons_cons]
      rw [h a t (by simp), ih tf (by simpa using hl) (fun z w hw => h z w (by simp [hw]))]

/-- Applying and then removing the transfer function (in either order). -/
theorem applyTf_cancel (d : Bool) (a r : List ℝ) (tf : List ℂ) (hH : Hermitian tf) (hz : 0 ∉ tf)
    (h : applyTf d a tf = .ok r) : applyTf (!d) r tf = .ok a := by
  obtain ⟨hl, _⟩ := applyTf_inv h
  obtain ⟨r', h1, h2, h3⟩ := applyTf_spec d a tf hl hH (fun _ => hz)
  rw [h] at h1; cases h1
  obtain ⟨b, h4, h5, h6⟩ := applyTf_spec (!d) r tf (by rw [h2, hl]) hH (fun _ => hz)
  rw [h4]
  congr 1
  apply fft_inj
  rw [h6, h3]
  apply zipWith_cancel
  · rw [fftL_length]; simp [hl]
  · intro z w hw
    have : w ≠ 0 := fun h0 => hz (h0 ▸ hw)
    cases d <;> simp [this]

/-! ## Preparation -/

theorem prepareTf_inv {x : Rec ℝ} {f : List ℝ} {tf : TfArg} {extrap : Bool} {x' : Rec ℝ} {ds : List ℂ}
    (h : prepareTf x f tf extrap = .ok (x', ds)) :
    ∃ (a p : List ℝ) (fi fi' : FreqInt) (tab : TfTab) (ss : List ℂ),
      tfArg f.length tf = .ok (a, p) ∧ freqInterval x = .ok fi ∧ f ≠ [] ∧
      (if extrap then ∃ t, extendHigh fi.fmax (f.zip (a.zip p)) = .ok t ∧ tab = extendLow fi.df t ∧ x' = x ∧ fi' = fi
        else downsample (tabMax (f.zip (a.zip p))) x fi = .ok (x', fi') ∧ tab = f.zip (a.zip p)) ∧
      freqInterval x' = .ok fi' ∧
      tfSingle tab fi'.n fi'.f = .ok ss ∧ ds = tfDouble fi'.n fi'.half ss := by
  unfold prepareTf at h
  cases ha : tfArg f.length tf with
  | error e => rw [ha] at h; cases h
  | ok ap =>
    obtain ⟨a, p⟩ := ap
    rw [ha] at h
    cases hf : freqInterval x with
    | error e => rw [hf] at h; cases h
    | ok fi =>
      rw [hf] at h
      simp only [bind, Except.bind] at h
      by_cases hnil : f = []
      · rw [if_pos hnil] at h; cases h
      · rw [if_neg hnil] at h
        cases extrap with
        | true =>
          simp only [if_true] at h
          cases he : extendHigh fi.fmax (f.zip (a.zip p)) with
          | error e => rw [he] at h; cases h
          | ok t =>
            rw [he] at h
            simp only [pure, Except.pure] at h
            cases hs : tfSingle (extendLow fi.df t) fi.n fi.f with
            | error e => rw [hs] at h; cases h
            | ok ss =>
              rw [hs] at h
              cases h
              exact ⟨a, p, fi, fi, _, ss, rfl, rfl, hnil, by rw [if_pos rfl]; exact ⟨t, he, rfl, rfl, rfl⟩, hf, hs, rfl⟩
        | false =>
          simp only [Bool.false_eq_true, if_false] at h
          cases hd : downsample (tabMax (f.zip (a.zip p))) x fi with
          | error e => rw [hd] at h; cases h
          | ok r =>
            obtain ⟨x2, fi2⟩ := r
            rw [hd] at h
            simp only [pure, Except.pure] at h
            cases hs : tfSingle (f.zip (a.zip p)) fi2.n fi2.f with
            | error e => rw [hs] at h; cases h
            | ok ss =>
              rw [hs] at h
              cases h
              exact ⟨a, p, fi, fi2, _, ss, rfl, rfl, hnil,
                by rw [if_neg Bool.false_ne_true]; exact ⟨hd, rfl⟩,
                (downsample_ok _ _ _ hf _ _ hd).2.1, hs, rfl⟩

theorem prepareTf_ok {x : Rec ℝ} {f : List ℝ} {tf : TfArg} {extrap : Bool} {x' : Rec ℝ} {ds : List ℂ}
    (h : prepareTf x f tf extrap = .ok (x', ds)) :
    ds.length = x'.length ∧ Hermitian ds ∧ (∃ k : Nat, x' = everySecond^[k] x) ∧ (extrap = true → x' = x) := by
  obtain ⟨a, p, fi, fi', tab, ss, ha, hf, hnil, hb, hf', hs, hds⟩ := prepareTf_inv h
  obtain ⟨h2, hn, hh, hfl, _⟩ := freqInterval_ok hf'
  obtain ⟨s1, s2, s3, _⟩ := tfSingle_ok hs
  have hlen : ss.length = fi'.half := by rw [s1, hfl]
  have hn2 : 2 ≤ fi'.n := by rw [hn]; exact h2
  refine ⟨?_, ?_, ?_, ?_⟩
  · rw [hds, (tfDouble_get _ _ _ hn2 hh hlen).1, hn]
  · rw [hds]
    exact tfDouble_hermitian _ _ _ hn2 hh hlen s2 (fun he => by rw [← hfl]; exact s3 he)
  · cases extrap with
    | true => simp only [if_true] at hb; obtain ⟨t, _, _, hx, _⟩ := hb; exact ⟨0, hx⟩
    | false => simp only [Bool.false_eq_true, if_false] at hb; exact (downsample_ok _ _ _ hf _ _ hb.1).1
  · intro he; rw [if_pos he] at hb; obtain ⟨t, _, _, hx, _⟩ := hb; exact hx

theorem iterate_everySecond_map {α β : Type} (g : α → β) (k : Nat) (l : List α) :
    everySecond^[k] (l.map g) = (everySecond^[k] l).map g := by
  induction k generalizing l with
  | zero => rfl
  | succ k ih => rw [Function.iterate_succ_apply, everySecond_map, ih, Function.iterate_succ_apply]

/-- The preparation looks at the times of the motion only. -/
theorem prepareTf_congr {x y : Rec ℝ} {f : List ℝ} {tf : TfArg} {extrap : Bool} {x' : Rec ℝ} {ds : List ℂ}
    (hxy : x.map Prod.fst = y.map Prod.fst) (h : prepareTf x f tf extrap = .ok (x', ds)) :
    ∃ k : Nat, x' = everySecond^[k] x ∧ prepareTf y f tf extrap = .ok (everySecond^[k] y, ds) := by
  obtain ⟨a, p, fi, fi', tab, ss, ha, hf, hnil, hb, hf', hs, hds⟩ := prepareTf_inv h
  have hfy : freqInterval y = .ok fi := by rw [← freqInterval_congr hxy]; exact hf
  cases extrap with
  | true =>
    simp only [if_true] at hb
    obtain ⟨t, h1, h2, h3, h4⟩ := hb
    refine ⟨0, h3, ?_⟩
    subst h4 h2
    unfold prepareTf
    rw [ha, hfy]
    simp only [bind, Except.bind, if_neg hnil, if_true, h1, pure, Except.pure, hs, hds, Function.iterate_zero, id]
  | false =>
    simp only [Bool.false_eq_true, if_false] at hb
    obtain ⟨k, h1, h2⟩ := downsample_congr _ x y fi hxy x' fi' hb.1
    refine ⟨k, h1, ?_⟩
    have := hb.2
    subst this
    unfold prepareTf
    rw [ha, hfy]
    simp only [bind, Except.bind, if_neg hnil, Bool.false_eq_true, if_false, h2, pure, Except.pure, hs, hds]

/-- Once down-sampled, a motion is not down-sampled again. -/
theorem prepareTf_again {x : Rec ℝ} {f : List ℝ} {tf : TfArg} {extrap : Bool} {x' : Rec ℝ} {ds : List ℂ}
    (h : prepareTf x f tf extrap = .ok (x', ds)) {y : Rec ℝ} (hy : y.map Prod.fst = x'.map Prod.fst) :
    prepareTf y f tf extrap = .ok (y, ds) := by
  obtain ⟨a, p, fi, fi', tab, ss, ha, hf, hnil, hb, hf', hs, hds⟩ := prepareTf_inv h
  have hfy : freqInterval y = .ok fi' := by rw [freqInterval_congr hy]; exact hf'
  cases extrap with
  | true =>
    simp only [if_true] at hb
    obtain ⟨t, h1, h2, h3, h4⟩ := hb
    subst h4 h2
    unfold prepareTf
    rw [ha, hfy]
    simp only [bind, Except.bind, if_neg hnil, if_true, h1, pure, Except.pure, hs, hds]
  | false =>
    simp only [Bool.false_eq_true, if_false] at hb
    obtain ⟨hd, htab⟩ := hb
    have hself := downsample_self (x := y) (downsample_ok _ _ _ hf _ _ hd).2.2
    subst htab
    unfold prepareTf
    rw [ha, hfy]
    simp only [bind, Except.bind, if_neg hnil, Bool.false_eq_true, if_false, hself, pure, Except.pure, hs, hds]

/-! ## The whole function -/

theorem colStack_ok {K : Type} {t a : List K} {r : Rec K} (h : colStack t a = .ok r) : r.map Prod.fst = t ∧ r.map Prod.snd = a := by
  unfold colStack at h
  by_cases c : t.length = a.length
  · rw [if_neg (by rw [not_not]; exact c)] at h
    cases h
    exact ⟨by rw [List.map_fst_zip (by omega)], by rw [List.map_snd_zip (by omega)]⟩
  · rw [if_pos c] at h; cases h

theorem zip_fst_snd {α β : Type} (x : List (α × β)) : (x.map Prod.fst).zip (x.map Prod.snd) = x := by
  induction x with
  | nil => rfl
  | cons a x ih => simp [ih]

theorem amplifyMotion_inv {x : Rec ℝ} {f : List ℝ} {tf : TfArg} {taper : Option (List ℝ → List ℝ)} {extrap deconv : Bool}
    {y : Rec ℝ} (h : amplifyMotion x f tf taper extrap deconv = .ok y) :
    ∃ x' ds, prepareTf x f tf extrap = .ok (x', ds) ∧
      applyTf deconv (tapered taper (x'.map Prod.snd)) ds = .ok (y.map Prod.snd) ∧ y.map Prod.fst = x'.map Prod.fst := by
  unfold amplifyMotion at h
  cases hp : prepareTf x f tf extrap with
  | error e => rw [hp] at h; cases h
  | ok r =>
    obtain ⟨x', ds⟩ := r
    rw [hp] at h
    simp only [bind, Except.bind] at h
    cases ha : applyTf deconv (tapered taper (x'.map Prod.snd)) ds with
    | error e => rw [ha] at h; cases h
    | ok r =>
      rw [ha] at h
      simp only at h
      obtain ⟨h1, h2⟩ := colStack_ok h
      refine ⟨x', ds, rfl, ?_, h1⟩
      rw [h2, ← ha]

theorem amplifyMotion_mk {x : Rec ℝ} {f : List ℝ} {tf : TfArg} {taper : Option (List ℝ → List ℝ)} {extrap deconv : Bool}
    {x' : Rec ℝ} {ds : List ℂ} {r : List ℝ} (h : prepareTf x f tf extrap = .ok (x', ds))
    (ha : applyTf deconv (tapered taper (x'.map Prod.snd)) ds = .ok r) (hl : r.length = x'.length) :
    amplifyMotion x f tf taper extrap deconv = .ok ((x'.map Prod.fst).zip r) := by
  unfold amplifyMotion
  rw [h]
  simp only [bind, Except.bind]
  rw [ha]
  simp only
  unfold colStack
  rw [if_neg (by simp [hl])]

end Verif
