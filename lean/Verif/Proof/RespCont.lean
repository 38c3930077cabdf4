import Verif.Proof.ListCont
import Verif.Props.EveryLayerTf
import Mathlib.Analysis.SpecialFunctions.Pow.Continuity

/-! The response of all layers depends continuously on thickness, modulus, damping and density. -/

set_option linter.unusedSectionVars false
set_option linter.unusedVariables false

open Filter Topology Complex

namespace Verif

open Spec (DampedLay Valid5 rowLay)

variable {ι : Type} {f : Filter ι}

/-- Layers approaching a layer. -/
structure GNear (f : Filter ι) (lay : ι → GLay) (l : GLay) : Prop where
  h : Tendsto (fun i => (lay i).h) f (𝓝 l.h)
  G : Tendsto (fun i => (lay i).G) f (𝓝 l.G)
  D : Tendsto (fun i => (lay i).D) f (𝓝 l.D)
  rho : Tendsto (fun i => (lay i).rho) f (𝓝 l.rho)

/-- A layer with modulus and density. -/
def GoodG (l : GLay) : Prop := 0 < l.G ∧ 0 < l.rho

theorem tendsto_cast {g : ι → ℝ} {x : ℝ} (h : Tendsto g f (𝓝 x)) : Tendsto (fun i => (g i : ℂ)) f (𝓝 (x : ℂ)) :=
  (Complex.continuous_ofReal.tendsto x).comp h

theorem modG_slit {l : GLay} (h : GoodG l) : (l.G : ℂ) * (1 + 2 * I * l.D) / l.rho ∈ slitPlane := by
  left
  have e : (l.G : ℂ) * (1 + 2 * I * l.D) / l.rho = ((l.G / l.rho : ℝ) : ℂ) + ((2 * l.D * l.G / l.rho : ℝ) : ℂ) * I := by
    push_cast; ring
  rw [e]
  have := div_pos h.1 h.2
  simpa using this

theorem vsStarG_ne {l : GLay} (h : GoodG l) : vsStarG l ≠ 0 := csqrt_ne_zero (slitPlane_ne_zero (modG_slit h))

theorem vsStarG_tendsto {lay : ι → GLay} {l : GLay} (h : GNear f lay l) (hg : GoodG l) :
    Tendsto (fun i => vsStarG (lay i)) f (𝓝 (vsStarG l)) := by
  unfold vsStarG csqrt
  refine Tendsto.cpow ?_ tendsto_const_nhds (modG_slit hg)
  refine Tendsto.div ((tendsto_cast h.G).mul ((tendsto_const_nhds).add (tendsto_const_nhds.mul (tendsto_cast h.D)))) (tendsto_cast h.rho) ?_
  exact_mod_cast hg.2.ne'

theorem alphaG_tendsto {lay lay' : ι → GLay} {l l' : GLay} (h : GNear f lay l) (hg : GoodG l) (h' : GNear f lay' l') (hg' : GoodG l') :
    Tendsto (fun i => alphaG (lay i) (lay' i)) f (𝓝 (alphaG l l')) := by
  unfold alphaG
  refine ((tendsto_cast h.rho).mul (vsStarG_tendsto h hg)).div ((tendsto_cast h'.rho).mul (vsStarG_tendsto h' hg')) ?_
  exact mul_ne_zero (by exact_mod_cast hg'.2.ne') (vsStarG_ne hg')

theorem kStarG_tendsto (w : ℝ) {lay : ι → GLay} {l : GLay} (h : GNear f lay l) (hg : GoodG l) :
    Tendsto (fun i => kStarG w (lay i)) f (𝓝 (kStarG w l)) := by
  unfold kStarG
  exact tendsto_const_nhds.mul (tendsto_const_nhds.div (vsStarG_tendsto h hg) (vsStarG_ne hg))

theorem abNext_tendsto (w : ℝ) {lay : ι → GLay} {l : GLay} {al : ι → ℂ} {a : ℂ} {p : ι → ℂ × ℂ} {p0 : ℂ × ℂ} (h : GNear f lay l) (hg : GoodG l)
    (ha : Tendsto al f (𝓝 a)) (hp : Tendsto p f (𝓝 p0)) : Tendsto (fun i => abNext w (lay i) (al i) (p i)) f (𝓝 (abNext w l a p0)) := by
  have hk := kStarG_tendsto w h hg
  have hh := tendsto_cast h.h
  have p1 : Tendsto (fun i => (p i).1) f (𝓝 p0.1) := (continuous_fst.tendsto p0).comp hp
  have p2 : Tendsto (fun i => (p i).2) f (𝓝 p0.2) := (continuous_snd.tendsto p0).comp hp
  have e1 : Tendsto (fun i => exp (I * kStarG w (lay i) * (lay i).h)) f (𝓝 (exp (I * kStarG w l * l.h))) :=
    (Complex.continuous_exp.tendsto _).comp ((tendsto_const_nhds.mul hk).mul hh)
  have e2 : Tendsto (fun i => exp (-I * kStarG w (lay i) * (lay i).h)) f (𝓝 (exp (-I * kStarG w l * l.h))) :=
    (Complex.continuous_exp.tendsto _).comp ((tendsto_const_nhds.mul hk).mul hh)
  unfold abNext
  refine Tendsto.prodMk_nhds ?_ ?_
  · exact (((tendsto_const_nhds.mul p1).mul (tendsto_const_nhds.add ha)).mul e1).add (((tendsto_const_nhds.mul p2).mul (tendsto_const_nhds.sub ha)).mul e2)
  · exact (((tendsto_const_nhds.mul p1).mul (tendsto_const_nhds.sub ha)).mul e1).add (((tendsto_const_nhds.mul p2).mul (tendsto_const_nhds.add ha)).mul e2)

theorem abScan_tendsto (w : ℝ) : ∀ (Φ : List ((ι → GLay × ℂ) × (GLay × ℂ))) (p : ι → ℂ × ℂ) (p0 : ℂ × ℂ), Tendsto p f (𝓝 p0) →
    (∀ φ ∈ Φ, GNear f (fun i => (φ.1 i).1) φ.2.1 ∧ GoodG φ.2.1 ∧ Tendsto (fun i => (φ.1 i).2) f (𝓝 φ.2.2)) →
    Tendsto (fun i => abScan w (p i) (Φ.map fun φ => φ.1 i)) f (𝓝 (abScan w p0 (Φ.map fun φ => φ.2))) := by
  intro Φ
  induction Φ with
  | nil => intro p p0 hp _; exact hp.cons tendsto_const_nhds
  | cons φ Φ ih =>
    intro p p0 hp h
    obtain ⟨h1, h2, h3⟩ := h φ (by simp)
    have := ih (fun i => abNext w (φ.1 i).1 (φ.1 i).2 (p i)) _ (abNext_tendsto w h1 h2 h3 hp) fun ψ hψ => h ψ (by simp [hψ])
    exact hp.cons this

/-! ## Layers by index -/

/-- Impedance ratio of layer `k`, of `n`, with zero at a rigid base. -/
noncomputable def alK (b : Boundary) (n : ℕ) (u : ℕ → GLay) (k : ℕ) : ℂ := if b = .rigid ∧ k + 2 = n then 0 else alphaG (u k) (u (k + 1))

theorem zipWith_tail_range {α β : Type} (g : α → α → β) (u : ℕ → α) (n : ℕ) :
    List.zipWith g ((List.range n).map u) ((List.range n).map u).tail = (List.range (n - 1)).map fun k => g (u k) (u (k + 1)) := by
  apply List.ext_getElem
  · simp
  · intro k h1 h2
    simp

theorem alphasG_range (b : Boundary) (n : ℕ) (u : ℕ → GLay) (hb : b = .rigid → 2 ≤ n) :
    alphasG b ((List.range n).map u) = .ok ((List.range (n - 1)).map (alK b n u)) := by
  unfold alphasG
  rw [zipWith_tail_range]
  cases b with
  | elastic => simp [alK]
  | rigid =>
    have h2 := hb rfl
    simp only
    rw [if_neg (by simp; omega)]
    congr 1
    apply List.ext_getElem
    · simp; omega
    · intro k h1 h2'
      have hk : k < n - 1 := by simpa using h2'
      simp only [List.getElem_map, List.getElem_range, alK, true_and]
      by_cases h : k + 2 = n
      · rw [if_pos h, List.getElem_append_right (by simp; omega)]; simp
      · rw [if_neg h, List.getElem_append_left (by simp; omega)]; simp

theorem zip_range_map {α β : Type} (u : ℕ → α) (v : ℕ → β) (n : ℕ) :
    ((List.range n).map u).zip ((List.range (n - 1)).map v) = (List.range (n - 1)).map fun k => (u k, v k) := by
  apply List.ext_getElem
  · simp
  · intro k h1 h2
    simp

theorem alK_tendsto (b : Boundary) (n : ℕ) {lay : ℕ → ι → GLay} {l : ℕ → GLay} (h : ∀ k < n, GNear f (lay k) (l k)) (hg : ∀ k < n, GoodG (l k))
    (k : ℕ) (hk : k < n - 1) : Tendsto (fun i => alK b n (fun k => lay k i) k) f (𝓝 (alK b n l k)) := by
  unfold alK
  split_ifs with c
  · exact tendsto_const_nhds
  · exact alphaG_tendsto (h k (by omega)) (hg k (by omega)) (h (k + 1) (by omega)) (hg (k + 1) (by omega))

/-- The amplitudes of all layers. -/
noncomputable def abAll (b : Boundary) (n : ℕ) (w : ℝ) (u : ℕ → GLay) : List (ℂ × ℂ) :=
  abScan w (1, 1) ((List.range (n - 1)).map fun k => (u k, alK b n u k))

theorem abAll_tendsto (b : Boundary) (n : ℕ) (w : ℝ) {lay : ℕ → ι → GLay} {l : ℕ → GLay} (h : ∀ k < n, GNear f (lay k) (l k))
    (hg : ∀ k < n, GoodG (l k)) : Tendsto (fun i => abAll b n w (fun k => lay k i)) f (𝓝 (abAll b n w l)) := by
  have := abScan_tendsto (f := f) w ((List.range (n - 1)).map fun k => ((fun i => (lay k i, alK b n (fun k => lay k i) k)), (l k, alK b n l k)))
    (fun _ => (1, 1)) (1, 1) tendsto_const_nhds (by
      intro φ hφ
      obtain ⟨k, hk, rfl⟩ := List.mem_map.1 hφ
      have hk := List.mem_range.1 hk
      exact ⟨h k (by omega), hg k (by omega), alK_tendsto b n h hg k hk⟩)
  simp only [List.map_map, Function.comp_def] at this
  exact this

theorem hRowAl_range (b : Boundary) (n : ℕ) (w : ℝ) (u : ℕ → GLay) :
    hRowAl ((List.range (n - 1)).map (alK b n u)) w ((List.range n).map u) = (abAll b n w u).map fun p => (p.1 + p.2) / ((abAll b n w u).getLastD (1, 1)).1 := by
  unfold hRowAl abAll
  rw [zip_range_map]

theorem hRowAl_tendsto (b : Boundary) (n : ℕ) (w : ℝ) {lay : ℕ → ι → GLay} {l : ℕ → GLay} (h : ∀ k < n, GNear f (lay k) (l k))
    (hg : ∀ k < n, GoodG (l k)) (hd : ((abAll b n w l).getLastD (1, 1)).1 ≠ 0) :
    Tendsto (fun i => hRowAl ((List.range (n - 1)).map (alK b n fun k => lay k i)) w ((List.range n).map fun k => lay k i)) f
      (𝓝 (hRowAl ((List.range (n - 1)).map (alK b n l)) w ((List.range n).map l))) := by
  simp only [hRowAl_range]
  have ht := abAll_tendsto b n w h hg
  obtain ⟨t1, t2⟩ := (tendsto_list ((1, 1) : ℂ × ℂ) _ _).1 ht
  have last : ∀ L : List (ℂ × ℂ), L.getLastD (1, 1) = L.getD (L.length - 1) (1, 1) := fun L => by
    rw [List.getLastD_eq_getLast?, List.getLast?_eq_getElem?, List.getD_eq_getElem?_getD]
  have hne : (abAll b n w l).length ≠ 0 := by
    have := abScan_ne_nil w (1, 1) ((List.range (n - 1)).map fun k => (l k, alK b n l k))
    unfold abAll
    simpa using this
  have tl : Tendsto (fun i => ((abAll b n w fun k => lay k i).getLastD (1, 1)).1) f (𝓝 ((abAll b n w l).getLastD (1, 1)).1) := by
    rw [last]
    refine ((continuous_fst.tendsto _).comp (t2 ((abAll b n w l).length - 1) (by omega))).congr' ?_
    filter_upwards [t1] with i hi
    rw [last, hi]
    rfl
  refine (tendsto_list (0 : ℂ) _ _).2 ⟨?_, ?_⟩
  · filter_upwards [t1] with i hi
    simpa using hi
  · intro k hk
    have hk' : k < (abAll b n w l).length := by simpa using hk
    rw [getD_map_ite _ ((1, 1) : ℂ × ℂ), if_pos hk']
    have tk := t2 k hk'
    have := (((continuous_fst.tendsto _).comp tk).add ((continuous_snd.tendsto _).comp tk)).div tl hd
    refine this.congr' ?_
    filter_upwards [t1] with i hi
    rw [getD_map_ite _ ((1, 1) : ℂ × ℂ), if_pos (by rw [hi]; exact hk')]
    rfl

theorem cont_hColumn (N : ℕ) : Continuous (hColumn N) := by
  unfold hColumn
  have c0 : Continuous fun g : ℕ → ℂ => realFirst ((List.range ((N * 15 + 1) / 2)).map g) :=
    cont_realFirst.comp (cont_range (G := fun k (g : ℕ → ℂ) => g k) continuous_const 0 fun k => continuous_apply k)
  refine (cont_subsample 15 (by norm_num)).comp (cont_append.comp (c0.prodMk ?_))
  exact (cont_map Complex.continuous_conj).comp (cont_reverse.comp ((cont_drop 1).comp c0))

theorem hColumn_congr (N : ℕ) (g g' : ℕ → ℂ) (h : ∀ j < (N * 15 + 1) / 2, g j = g' j) : hColumn N g = hColumn N g' := by
  unfold hColumn
  simp only
  rw [List.map_congr_left fun j hj => h j (List.mem_range.1 hj)]

theorem hColumn_tendsto (N : ℕ) {g : ι → ℕ → ℂ} {g0 : ℕ → ℂ} (h : ∀ j < (N * 15 + 1) / 2, Tendsto (fun i => g i j) f (𝓝 (g0 j))) :
    Tendsto (fun i => hColumn N (g i)) f (𝓝 (hColumn N g0)) := by
  rw [hColumn_congr N g0 (fun j => if j < (N * 15 + 1) / 2 then g0 j else 0) fun j hj => by rw [if_pos hj]]
  have e : (fun i => hColumn N (g i)) = fun i => hColumn N (fun j => if j < (N * 15 + 1) / 2 then g i j else 0) := by
    funext i
    exact hColumn_congr N _ _ fun j hj => by rw [if_pos hj]
  rw [e]
  refine ((cont_hColumn N).tendsto _).comp (tendsto_pi_nhds.2 fun j => ?_)
  by_cases hj : j < (N * 15 + 1) / 2
  · simp only [hj, if_true]; exact h j hj
  · simp only [hj, if_false]; exact tendsto_const_nhds

/-- All frequency responses, for layers given by index. -/
theorem hMatrix_range (N : ℕ) (dt : ℝ) (b : Boundary) (n : ℕ) (u : ℕ → GLay) (hb : b = .rigid → 2 ≤ n) :
    hMatrix N dt b ((List.range n).map u) = .ok ((List.range n).map fun k => hColumn N fun j =>
      (hRowAl ((List.range (n - 1)).map (alK b n u)) (overOmega N dt j) ((List.range n).map u)).getD k 0) := by
  unfold hMatrix
  rw [alphasG_range b n u hb]
  simp

theorem hMatrix_tendsto (N : ℕ) (dt : ℝ) (b : Boundary) (n : ℕ) {lay : ℕ → ι → GLay} {l : ℕ → GLay} (hb : b = .rigid → 2 ≤ n)
    (h : ∀ k < n, GNear f (lay k) (l k)) (hg : ∀ k < n, GoodG (l k))
    (hd : ∀ j < (N * 15 + 1) / 2, ((abAll b n (overOmega N dt j) l).getLastD (1, 1)).1 ≠ 0)
    {H : ι → List (List ℂ)} {H0 : List (List ℂ)} (hH : ∀ i, hMatrix N dt b ((List.range n).map fun k => lay k i) = .ok (H i))
    (hH0 : hMatrix N dt b ((List.range n).map l) = .ok H0) : Tendsto H f (𝓝 H0) := by
  rw [hMatrix_range N dt b n l hb] at hH0
  have e : H = fun i => (List.range n).map fun k => hColumn N fun j =>
      (hRowAl ((List.range (n - 1)).map (alK b n fun k => lay k i)) (overOmega N dt j) ((List.range n).map fun k => lay k i)).getD k 0 := by
    funext i
    have := hH i
    rw [hMatrix_range N dt b n _ hb] at this
    exact (Except.ok.inj this).symm
  rw [← Except.ok.inj hH0, e]
  refine (tendsto_list [] _ _).2 ⟨by simp, fun k hk => ?_⟩
  have hk' : k < n := by simpa using hk
  have get : ∀ (F : ℕ → List ℂ), ((List.range n).map F).getD k [] = F k := fun F => by
    rw [List.getD_eq_getElem _ _ (by simpa using hk')]; simp
  simp only [get]
  refine hColumn_tendsto N fun j hj => ?_
  exact ((cont_getD 0 k).tendsto _).comp (hRowAl_tendsto b n _ h hg (hd j hj))

/-- For damped layers the denominators do not vanish. -/
theorem abAll_last_ne (b : Boundary) {w : ℝ} (hw : 0 < w) (ls : List Lay) (hne : ls ≠ []) (hd : ∀ x ∈ ls, DampedLay x) (hb : b = .rigid → 2 ≤ ls.length)
    (l : ℕ → GLay) (hl : (List.range ls.length).map l = ls.map toG) : ((abAll b ls.length w l).getLastD (1, 1)).1 ≠ 0 := by
  have hal := alphasG_range b ls.length l hb
  have e : abAll b ls.length w l = abScan w (1, 1) ((ls.map toG).zip ((List.range (ls.length - 1)).map (alK b ls.length l))) := by
    unfold abAll
    rw [← hl, zip_range_map]
  rw [hl] at hal
  rw [e]
  have hpos : ∀ x ∈ ls, 0 < x.vs ∧ 0 < x.rho := fun x hx => ⟨(hd x hx).2.1, (hd x hx).2.2.1⟩
  obtain ⟨n1, n2⟩ := den_ne hw hne hd
  rw [(eMat_den w ls).1] at n1
  rw [(eMat_den w ls).2] at n2
  cases b with
  | elastic =>
    have e1 : List.zipWith alphaG (ls.map toG) (ls.map toG).tail = (List.range (ls.length - 1)).map (alK .elastic ls.length l) := Except.ok.inj hal
    rw [← e1]
    match ls, hne with
    | x :: xs, _ => rw [scan_elastic xs x (1, 1) hpos]; exact n1
  | rigid =>
    match ls, hb rfl with
    | x :: y :: xs, _ =>
      rw [alphasG_rigid] at hal
      rw [← Except.ok.inj hal, scan_rigid xs x y (1, 1) hpos]
      exact div_ne_zero n2 two_ne_zero

/-! ## All results of the response calculation -/

/-- Layers from lists, by index. -/
theorem gLays_range (h G D rho : List ℝ) (n : ℕ) (h1 : h.length = n) (h2 : G.length = n) (h3 : D.length = n) (h4 : rho.length = n) :
    gLays h G D rho = (List.range n).map fun k => (⟨h.getD k 0, G.getD k 0, D.getD k 0, rho.getD k 0⟩ : GLay) := by
  apply List.ext_getElem
  · simp [gLays, h1, h2, h3, h4]
  · intro k k1 k2
    have hk : k < n := by simpa using k2
    simp only [gLays, List.getElem_zipWith, List.getElem_zip, List.getElem_map, List.getElem_range]
    rw [List.getD_eq_getElem _ _ (by omega), List.getD_eq_getElem _ _ (by omega), List.getD_eq_getElem _ _ (by omega),
      List.getD_eq_getElem _ _ (by omega)]

/-- If moduli and dampings approach those of a valid profile, so does everything computed from them. -/
theorem linResp_tendsto {dt : ℝ} {b : Boundary} {acc : List ℝ} {Rg : ℝ} {prof : List (Row ℝ)} (hdt : 0 < dt) (hN : 2 ≤ acc.length)
    (hodd : acc.length % 2 = 1) (hv : Valid5 prof) (hb : b = .rigid → 2 ≤ prof.length) {G D : ι → List ℝ}
    (hG : ∀ i, (G i).length = prof.length) (hD : ∀ i, (D i).length = prof.length)
    (tG : Tendsto G f (𝓝 (prof.map fun r => r.rho * r.vs ^ 2))) (tD : Tendsto D f (𝓝 (prof.map Row.xi)))
    {r : ι → Resp × List ℝ} {r0 : Resp × List ℝ}
    (hr : ∀ i, linResp dt b acc Rg (prof.map Row.thk) (G i) (D i) (prof.map Row.rho) = .ok (r i))
    (hr0 : linResp dt b acc Rg (prof.map Row.thk) (prof.map fun r => r.rho * r.vs ^ 2) (prof.map Row.xi) (prof.map Row.rho) = .ok r0) :
    Tendsto (fun i => (r i).1.H) f (𝓝 r0.1.H) ∧ Tendsto (fun i => (r i).1.accel) f (𝓝 r0.1.accel) ∧
    Tendsto (fun i => (r i).1.veloc) f (𝓝 r0.1.veloc) ∧ Tendsto (fun i => (r i).1.displ) f (𝓝 r0.1.displ) ∧
    Tendsto (fun i => (r i).1.strain) f (𝓝 r0.1.strain) ∧ Tendsto (fun i => (r i).2) f (𝓝 r0.2) := by
  obtain ⟨a1, a2, a3, a4, a5, a6, -⟩ := linResp_ok hodd (by simp) (by simp) (by simp) hr0
  have ok := fun i => linResp_ok hodd (by rw [hG]; simp) (by rw [hD]; simp) (by simp) (hr i)
  have hls : ∀ x ∈ prof.map rowLay, DampedLay x := by
    intro x hx
    obtain ⟨q, hq, rfl⟩ := List.mem_map.1 hx
    have := hv.pos q hq
    exact ⟨hv.thk_nonneg q hq, this.1, this.2.2, this.2.1⟩
  have e0 := gLays_range (prof.map Row.thk) (prof.map fun r => r.rho * r.vs ^ 2) (prof.map Row.xi) (prof.map Row.rho) prof.length
    (by simp) (by simp) (by simp) (by simp)
  have ei := fun i => gLays_range (prof.map Row.thk) (G i) (D i) (prof.map Row.rho) prof.length (by simp) (hG i) (hD i) (by simp)
  set l : ℕ → GLay := fun k => ⟨(prof.map Row.thk).getD k 0, (prof.map fun r => r.rho * r.vs ^ 2).getD k 0, (prof.map Row.xi).getD k 0,
    (prof.map Row.rho).getD k 0⟩ with hl
  have hgood : ∀ k < prof.length, GoodG (l k) := by
    intro k hk
    have := hv.pos prof[k] (List.getElem_mem hk)
    constructor
    · simp only [hl]
      rw [List.getD_eq_getElem _ _ (by simpa using hk)]
      simp only [List.getElem_map]
      exact mul_pos this.2.2 (pow_pos this.1 2)
    · simp only [hl]
      rw [List.getD_eq_getElem _ _ (by simpa using hk)]
      simp only [List.getElem_map]
      exact this.2.2
  have tH : Tendsto (fun i => (r i).1.H) f (𝓝 r0.1.H) := by
    refine hMatrix_tendsto acc.length dt b prof.length
      (lay := fun k i => ⟨(prof.map Row.thk).getD k 0, (G i).getD k 0, (D i).getD k 0, (prof.map Row.rho).getD k 0⟩) (l := l) hb ?_ hgood ?_
      (fun i => by rw [← ei i]; exact (ok i).1) (by rw [← e0]; exact a1)
    · intro k hk
      exact ⟨tendsto_const_nhds, ((cont_getD 0 k).tendsto _).comp tG, ((cont_getD 0 k).tendsto _).comp tD, tendsto_const_nhds⟩
    · intro j hj
      have hpos : 0 < overOmega acc.length dt j := by
        rw [overOmega_eq _ dt hN hdt.ne' j (by omega)]
        have : (0 : ℝ) < acc.length := by exact_mod_cast (by omega : 0 < acc.length)
        have := Real.pi_pos
        positivity
      have := abAll_last_ne b hpos (prof.map rowLay) (by simpa using hv.nonempty) hls (by simpa using hb) l (by
        rw [← gLays_rows, e0]; simp)
      simpa using this
  have tA : Tendsto (fun i => (r i).1.accel) f (𝓝 r0.1.accel) := by
    rw [a2]
    refine (((cont_map (cont_accelCol _)).tendsto _).comp tH).congr fun i => ?_
    rw [(ok i).2.1]; rfl
  have tV : Tendsto (fun i => (r i).1.veloc) f (𝓝 r0.1.veloc) := by
    rw [a3]
    refine (((cont_map (cont_integrate dt)).tendsto _).comp tA).congr fun i => ?_
    rw [(ok i).2.2.1]; rfl
  have tU : Tendsto (fun i => (r i).1.displ) f (𝓝 r0.1.displ) := by
    rw [a4]
    refine (((cont_map (cont_displCol _ dt)).tendsto _).comp tA).congr fun i => ?_
    rw [(ok i).2.2.2.1]; rfl
  have tS : Tendsto (fun i => (r i).1.strain) f (𝓝 r0.1.strain) := by
    rw [a5]
    refine (((cont_strainCols _).tendsto _).comp tU).congr fun i => ?_
    rw [(ok i).2.2.2.2.1]; rfl
  refine ⟨tH, tA, tV, tU, tS, ?_⟩
  rw [a6]
  refine (((cont_map (continuous_const.mul cont_maxAbs)).tendsto _).comp tS).congr fun i => ?_
  rw [(ok i).2.2.2.2.2.1]; rfl

end Verif
