import Verif.Model.ParamSets
import Verif.Props.CurveSets

set_option linter.unusedSectionVars false
set_option linter.unusedVariables false

/-!
Property C133: parameter containers from arrays and files, and saving them.
-/

namespace Verif

open Spec (sameDict KInv MKZSet)

namespace Spec

/-- The documented order of the parameters in an array. -/
def paramNames : SoilModel → List String
  | .hh => ["gamma_t", "a", "gamma_ref", "beta", "s", "Gmax", "mu", "Tmax", "d"]
  | .mkz => ["gamma_ref", "s", "beta", "Gmax"]

/-- A layer whose parameters are the numbers of an array, in the documented order. -/
def LayerHas (m : SoilModel) (col : List ℝ) (o : PObj (Dict ℝ)) : Prop :=
  o.cls = (match m with | .hh => PCls.hh | .mkz => PCls.mkz) ∧
  List.Forall₂ (fun k v => o.val.look k = .ok v) (paramNames m) col ∧
  (∀ k, k ∈ o.val.map Prod.fst ↔ k ∈ paramNames m) ∧ (o.val.map Prod.fst).Nodup

/-- A layer that a container of the model can hold. -/
def GoodLayer (m : SoilModel) (o : PObj (Dict ℝ)) : Prop :=
  (∀ k, k ∈ o.val.map Prod.fst ↔ k ∈ paramNames m) ∧ (o.val.map Prod.fst).Nodup

end Spec

open Spec (paramNames LayerHas GoodLayer)

theorem keys_names (m : SoilModel) : m.keys = paramNames m := by cases m <;> rfl

theorem deser_layer (m : SoilModel) (col : List ℝ) (h : col.length = (paramNames m).length) :
    ∃ d, m.deser col = .ok d ∧ (d.map Prod.fst).Nodup ∧ (∀ k, k ∈ d.map Prod.fst ↔ k ∈ paramNames m) ∧
      List.Forall₂ (fun k v => d.look k = .ok v) (paramNames m) col := by
  cases m with
  | hh =>
    match col, h with
    | [x0, x1, x2, x3, x4, x5, x6, x7, x8], _ =>
      refine ⟨_, rfl, by simp, by intro k; simp [paramNames], ?_⟩
      repeat' constructor
  | mkz =>
    match col, h with
    | [x0, x1, x2, x3], _ =>
      refine ⟨_, rfl, by simp, by intro k; simp [paramNames], ?_⟩
      repeat' constructor

theorem deser_bad (m : SoilModel) (col : List ℝ) (h : col.length ≠ (paramNames m).length) :
    m.deser col = .error .assertionError := by
  cases m with
  | hh => exact (C16_hh_array col).2 h
  | mkz =>
    show deserializeMKZ 1 col false = _
    unfold deserializeMKZ
    match col, h with
    | [], _ => rfl
    | [_], _ => rfl
    | [_, _], _ => rfl
    | [_, _, _], _ => rfl
    | [_, _, _, _], h => exact absurd rfl h
    | _ :: _ :: _ :: _ :: _ :: _, _ => rfl

theorem newParamList_dicts (m : SoilModel) (ds : List (Dict ℝ))
    (h : ∀ d ∈ ds, (∀ k, k ∈ d.map Prod.fst ↔ k ∈ paramNames m) ∧ (d.map Prod.fst).Nodup) :
    newParamList m (ds.map .dict) = .ok ⟨m.multi, m.elem, ds.map fun d => ⟨m.elem, d⟩, ds.length⟩ := by
  have : (ds.map PArg.dict).mapM (convPArg m.elem fun _ d => (Param.mk' m.keys d).map Param.data) =
      .ok (ds.map fun d => (⟨m.elem, d⟩ : PObj (Dict ℝ))) := by
    apply mapM_exc_of
    rw [List.forall₂_map_left_iff, List.forall₂_map_right_iff]
    apply List.forall₂_same.2
    intro d hd
    obtain ⟨h1, h2⟩ := h d hd
    obtain ⟨p, hp, _, _⟩ := (C15_construct m.keys d).1 (by rw [keys_names]; exact h1)
    have hv := C15_construct_values m.keys d h2 p hp
    show ((Param.mk' m.keys d).map Param.data).map _ = _
    rw [hp, ← hv]; rfl
  unfold newParamList PMulti.mk'
  rw [this]
  simp [Except.map]

theorem cols_deser (m : SoilModel) : ∀ (cols : List (List ℝ)), (∀ c ∈ cols, c.length = (paramNames m).length) →
    ∃ ds, cols.mapM m.deser = .ok ds ∧ ds.length = cols.length ∧
      (∀ d ∈ ds, (∀ k, k ∈ d.map Prod.fst ↔ k ∈ paramNames m) ∧ (d.map Prod.fst).Nodup) ∧
      List.Forall₂ (fun c d => List.Forall₂ (fun k v => d.look k = .ok v) (paramNames m) c) cols ds
  | [], _ => ⟨[], rfl, rfl, by simp, .nil⟩
  | c :: cols, h => by
    obtain ⟨ds, h1, h2, h3, h4⟩ := cols_deser m cols fun x hx => h x (List.mem_cons_of_mem _ hx)
    obtain ⟨d, g1, g2, g3, g4⟩ := deser_layer m c (h c List.mem_cons_self)
    refine ⟨d :: ds, ?_, by simp [h2], ?_, .cons g4 h4⟩
    · rw [List.mapM_cons, g1, h1]; rfl
    · intro x hx
      rcases List.mem_cons.1 hx with rfl | hx
      · exact ⟨g3, g2⟩
      · exact h3 x hx

/-! ## C133 -/

/-- A two-dimensional array whose columns have the right number of parameters gives one layer per column, in order, each with
the parameters of its column. -/
theorem C133_array (m : SoilModel) (cols : List (List ℝ)) (h : ∀ c ∈ cols, c.length = (paramNames m).length) :
    ∃ p, newParams m (.arr (.mat cols)) = .ok p ∧ p.nLayer = cols.length ∧ List.Forall₂ (LayerHas m) cols p.items := by
  obtain ⟨ds, h1, h2, h3, h4⟩ := cols_deser m cols h
  refine ⟨⟨m.multi, m.elem, ds.map fun d => ⟨m.elem, d⟩, ds.length⟩, ?_, ?_, ?_⟩
  · unfold newParams
    simp only [bind, Except.bind, h1]
    exact newParamList_dicts m ds h3
  · simp [h2]
  · rw [List.forall₂_map_right_iff]
    rw [List.forall₂_iff_get] at h4 ⊢
    refine ⟨h4.1, fun i a b => ?_⟩
    have hm := h3 (ds.get ⟨i, b⟩) (List.get_mem _ _)
    exact ⟨by cases m <;> rfl, h4.2 i a b, hm.1, hm.2⟩

/-- Anything else is rejected: columns with another number of parameters (AssertionError), arrays without two dimensions, and
other types (TypeError). -/
theorem C133_rejects (m : SoilModel) (cols : List (List ℝ)) (x : ℝ) (l : List ℝ) :
    ((∃ c ∈ cols, c.length ≠ (paramNames m).length) → newParams m (.arr (.mat cols)) = .error .assertionError) ∧
    newParams m (.arr (.vec l)) = .error .typeError ∧ newParams m (.arr (.scalar x)) = .error .typeError ∧
    newParams m .other = .error .typeError := by
  refine ⟨fun h => ?_, rfl, rfl, rfl⟩
  have : cols.mapM m.deser = .error .assertionError := by
    apply mapM_some_error
    · intro c _
      by_cases hc : c.length = (paramNames m).length
      · obtain ⟨d, hd, _⟩ := deser_layer m c hc; exact .inl ⟨d, hd⟩
      · exact .inr (deser_bad m c hc)
    · obtain ⟨c, hc, hl⟩ := h
      exact ⟨c, hc, deser_bad m c hl⟩
  unfold newParams
  simp only [bind, Except.bind, this]

/-- A list of dictionaries is accepted if all have exactly the parameter names; the layers are the dictionaries, in order. -/
theorem C133_list (m : SoilModel) (ds : List (Dict ℝ))
    (h : ∀ d ∈ ds, (∀ k, k ∈ d.map Prod.fst ↔ k ∈ paramNames m) ∧ (d.map Prod.fst).Nodup) :
    ∃ p, newParams m (.list (ds.map .dict)) = .ok p ∧ p.nLayer = ds.length ∧ p.items.map PObj.val = ds :=
  ⟨_, newParamList_dicts m ds h, rfl, by rw [List.map_map]; exact List.map_id ds⟩

/-- A file with at least two columns is read like the array with these columns. -/
theorem C133_file (m : SoilModel) (r1 r2 : List ℝ) (rs : List (List ℝ)) (w : Nat) (hw2 : 2 ≤ w)
    (hw : ∀ r ∈ r1 :: r2 :: rs, r.length = w) :
    newParams m (.file (.mat (r1 :: r2 :: rs))) =
      newParams m (.arr (.mat ((List.range w).map fun j => (r1 :: r2 :: rs).map fun r => r.getD j 0))) := by
  have := toArr_rect r1 r2 rs w hw2 hw
  unfold newParams
  simp only [this]
  rfl

theorem one_column (m : SoilModel) (rows : List (List ℝ)) (h : ∀ r ∈ rows, r.length = 1) :
    newParams m (.file (.mat rows)) = .error .typeError := by
  unfold newParams
  match rows, h with
  | [], _ => rfl
  | [r], h =>
    have := h r (by simp)
    match r, this with
    | [x], _ => rfl
  | r :: q :: rows, h =>
    have h1 := h r (by simp)
    match r, h1 with
    | [x], _ =>
      have hall : ((q :: rows).all fun q => decide (q.length = [x].length)) = true := by
        rw [List.all_eq_true]
        intro y hy
        rw [decide_eq_true_eq]
        exact h y (List.mem_cons_of_mem _ hy)
      unfold toArr
      simp only [hall, Bool.true_eq_false, if_false]

/-! ### Saving and loading -/

theorem good_param (m : SoilModel) (o : PObj (Dict ℝ)) (h : GoodLayer m o) :
    KInv (⟨m.keys, o.val⟩ : Param ℝ) := ⟨h.2, by intro k; rw [keys_names]; exact h.1 k⟩

theorem ser_layer (m : SoilModel) (o : PObj (Dict ℝ)) (h : GoodLayer m o) :
    ∃ arr d, m.ser o.val = .ok arr ∧ arr.length = (paramNames m).length ∧ m.deser arr = .ok d ∧ sameDict d o.val := by
  cases m with
  | hh =>
    obtain ⟨arr, d, h1, h2, h3, h4⟩ := C16_hh_roundtrip ⟨hhKeys, o.val⟩ (good_param .hh o h) rfl
    exact ⟨arr, d, h1, h4.length_eq.symm, h2, h3⟩
  | mkz =>
    obtain ⟨⟨arr, d, h1, h2, h3, h4⟩, _⟩ := C16_mkz_roundtrip (0 : ℝ) 1 ⟨mkzKeys, o.val⟩ (good_param .mkz o h) rfl
    exact ⟨arr, d, h1, h4.length_eq.symm, h2, h3⟩

theorem ser_layers (m : SoilModel) : ∀ (l : List (PObj (Dict ℝ))), (∀ o ∈ l, GoodLayer m o) →
    ∃ out ds, (l.map PObj.val).mapM m.ser = .ok out ∧ out.length = l.length ∧
      (∀ a ∈ out, a.length = (paramNames m).length) ∧ out.mapM m.deser = .ok ds ∧
      List.Forall₂ (fun o d => sameDict d (PObj.val o)) l ds
  | [], _ => ⟨[], [], rfl, rfl, by simp, rfl, .nil⟩
  | o :: l, h => by
    obtain ⟨out, ds, h1, h2, h3, h4, h5⟩ := ser_layers m l fun x hx => h x (List.mem_cons_of_mem _ hx)
    obtain ⟨arr, d, g1, g2, g3, g4⟩ := ser_layer m o (h o List.mem_cons_self)
    refine ⟨arr :: out, d :: ds, ?_, by simp [h2], ?_, ?_, .cons g4 h5⟩
    · rw [List.map_cons, List.mapM_cons, g1, h1]; rfl
    · intro a ha
      rcases List.mem_cons.1 ha with rfl | ha
      · exact g2
      · exact h3 a ha
    · rw [List.mapM_cons, g3, h4]; rfl

theorem names_pos (m : SoilModel) : 4 ≤ (paramNames m).length := by cases m <;> simp [paramNames]

theorem filterMap_len (out : List (List ℝ)) (n i : Nat) (hi : i < n) (h : ∀ l ∈ out, l.length = n) :
    (out.filterMap fun l => l[i]?).length = out.length := by
  induction out with
  | nil => rfl
  | cons l out ih =>
    have : i < l.length := by rw [h l (by simp)]; exact hi
    rw [List.filterMap_cons, List.getElem?_eq_getElem this]
    simp only [List.length_cons]
    rw [ih (fun l hl => h l (by simp [hl]))]

theorem colsOf_extract (rows : List (List ℝ)) (r : List ℝ) (w : Nat) (h : ∀ q ∈ r :: rows, q.length = w) :
    colsOf (r :: rows) w = extractParams (r :: rows) := by
  unfold colsOf extractParams
  simp only [h r List.mem_cons_self]
  apply List.map_congr_left
  intro j hj
  have hj' := List.mem_range.1 hj
  generalize r :: rows = l at h
  induction l with
  | nil => rfl
  | cons q l ih =>
    have hq : j < q.length := by rw [h q List.mem_cons_self]; exact hj'
    rw [List.map_cons, List.filterMap_cons, List.getElem?_eq_getElem hq, List.getD_eq_getElem _ _ hq]
    simp only
    rw [ih fun x hx => h x (List.mem_cons_of_mem _ hx)]

/-- The file written for a container. -/
theorem save_rows (m : SoilModel) (c : PMulti (Dict ℝ)) (hne : c.items ≠ []) (h : ∀ o ∈ c.items, GoodLayer m o) :
    ∃ r1 r2 rs, saveParams m c = .ok (.mat (r1 :: r2 :: rs)) ∧ (∀ r ∈ r1 :: r2 :: rs, r.length = c.items.length) ∧
      (r1 :: r2 :: rs).length = (paramNames m).length ∧
      ∃ ds, (colsOf (r1 :: r2 :: rs) c.items.length).mapM m.deser = .ok ds ∧
        List.Forall₂ (fun o d => sameDict d (PObj.val o)) c.items ds := by
  obtain ⟨out, ds, h1, h2, h3, h4, h5⟩ := ser_layers m c.items h
  have hout : out ≠ [] := by
    intro ho; rw [ho] at h2
    exact hne (List.length_eq_zero_iff.1 h2.symm)
  have hn := names_pos m
  set rows := (List.range (paramNames m).length).map fun i => out.filterMap fun l => l[i]? with hrows
  have hrl : rows.length = (paramNames m).length := by simp [hrows]
  have hw : ∀ r ∈ rows, r.length = c.items.length := by
    intro r hr
    obtain ⟨i, hi, rfl⟩ := List.mem_map.1 hr
    rw [filterMap_len out _ i (List.mem_range.1 hi) h3, h2]
  have hsave : saveParams m c = .ok (.mat rows) := by
    have : to2D m.ser (c.items.map PObj.val) = .ok rows := by
      unfold to2D
      simp only [bind, Except.bind, h1, pure, Except.pure]
      cases out with
      | nil => exact absurd rfl hout
      | cons a out => simp only; rw [h3 a (by simp)]
    unfold saveParams
    rw [this]
  have htr : extractParams rows = out := transpose_transpose out _ (by omega) hout h3
  clear_value rows
  match rows, hrl with
  | r1 :: r2 :: rs, hrl =>
    refine ⟨r1, r2, rs, hsave, hw, hrl, ds, ?_, h5⟩
    rw [colsOf_extract _ _ _ hw, htr, h4]
  | [a], hrl => simp only [List.length_singleton] at hrl; omega
  | [], hrl => simp only [List.length_nil] at hrl; omega

/-- Saving a container with at least two layers and reading the file gives the same layers, in order.  Missing: containers
with one layer (`C133_one_layer_violated`) and the rounding of the numbers in the file. -/
theorem C133_save_load_partial (m : SoilModel) (c : PMulti (Dict ℝ)) (h2 : 2 ≤ c.items.length)
    (h : ∀ o ∈ c.items, GoodLayer m o) :
    ∃ f p, saveParams m c = .ok f ∧ newParams m (.file f) = .ok p ∧ p.nLayer = c.items.length ∧
      List.Forall₂ (fun o q => sameDict (PObj.val q) (PObj.val o)) c.items p.items := by
  have hne : c.items ≠ [] := by intro hc; rw [hc] at h2; simp at h2
  obtain ⟨r1, r2, rs, s1, s2, s3, ds, s4, s5⟩ := save_rows m c hne h
  have hcl : ∀ x ∈ colsOf (r1 :: r2 :: rs) c.items.length, x.length = (paramNames m).length := by
    intro x hx
    unfold colsOf at hx
    obtain ⟨j, _, rfl⟩ := List.mem_map.1 hx
    rw [List.length_map, s3]
  obtain ⟨ds', d1, d2, d3, d4⟩ := cols_deser m _ hcl
  rw [s4] at d1
  cases d1
  refine ⟨_, ⟨m.multi, m.elem, ds.map fun d => ⟨m.elem, d⟩, ds.length⟩, s1, ?_, ?_, ?_⟩
  · unfold newParams
    simp only [toArr_rect r1 r2 rs _ h2 s2, bind, Except.bind, s4]
    exact newParamList_dicts m ds d3
  · have := s5.length_eq
    simp [this]
  · rw [List.forall₂_map_right_iff]
    exact s5

/-- C133 fails for one layer: the file that `save_txt` writes for a container with a single layer has one column, is read as a
one-dimensional array, and cannot be loaded again (TypeError). -/
theorem C133_one_layer_violated (m : SoilModel) (c : PMulti (Dict ℝ)) (o : PObj (Dict ℝ)) (h1 : c.items = [o])
    (h : GoodLayer m o) : ∃ f, saveParams m c = .ok f ∧ newParams m (.file f) = .error .typeError := by
  obtain ⟨r1, r2, rs, s1, s2, _⟩ := save_rows m c (by simp [h1]) (by simpa [h1] using h)
  exact ⟨_, s1, one_column m _ (by intro r hr; rw [s2 r hr, h1]; rfl)⟩

/-- C133 fails for no layers, too: a container that was emptied (`del`, or an empty slice) saves an empty file without complaint,
which cannot be loaded again (TypeError), although the container itself can be made from the empty list. -/
theorem C133_no_layers_violated (m : SoilModel) (c : PMulti (Dict ℝ)) (h1 : c.items = []) :
    saveParams m c = .ok (.mat []) ∧ newParams m (.file (.mat [])) = .error .typeError ∧
      ∃ p, newParams m (.list []) = .ok p ∧ p.items = [] := by
  refine ⟨?_, rfl, ?_⟩
  · unfold saveParams
    rw [h1]
    rfl
  · cases m <;> exact ⟨_, rfl, rfl⟩

/-! ### H4 files -/

/-- The layer that is read from a column of an H4 file (`gamma_ref`, a zero, `s`, `beta`). -/
theorem h4_layer (gr s beta : ℝ) : deserializeMKZ 1 [gr, 0, s, beta] false =
    .ok [("gamma_ref", gr), ("s", 0), ("beta", s), ("Gmax", beta)] := rfl

/-- C133 fails for parameter files in the documented H4 layout (`gamma_ref`, 0, `s`, `beta`, as written by
`serialize_params_to_array(…, to_files=True)` and as in the "H4_x_SITE_NAME.txt" files): `MKZ_Param_Multi_Layer(filename)`
reads them as `gamma_ref, s, beta, Gmax`.  Every layer gets the exponent 0, and its modulus reduction is the same constant at
every strain, whatever `gamma_ref` and `beta` are. -/
theorem C133_h4_file_violated (gr s beta : List ℝ) (n : Nat) (hn : 2 ≤ n) (h1 : gr.length = n) (h2 : s.length = n)
    (h3 : beta.length = n) :
    ∃ p, newParams .mkz (.file (.mat [gr, List.replicate n 0, s, beta])) = .ok p ∧ p.nLayer = n ∧
      ∀ (j : Nat) o, p.items[j]? = some o → o.val.look "s" = .ok 0 ∧
        ∀ pct g sj bj, gr[j]? = some g → s[j]? = some sj → beta[j]? = some bj → 0 < g → 0 < sj → 0 < bj → pct ≠ [] →
          (∀ e ∈ pct, (0 : ℝ) < e) → paramGGmax .mkz o.val pct = .ok (pct.map fun _ => 1 / (1 + sj)) := by
  rw [C133_file .mkz gr (List.replicate n 0) [s, beta] n hn (by
    intro r hr
    simp only [List.mem_cons, List.not_mem_nil, or_false] at hr
    rcases hr with rfl | rfl | rfl | rfl <;> simp [*])]
  set cols := (List.range n).map fun j => [gr, List.replicate n 0, s, beta].map fun r => r.getD j 0 with hcols
  have hlen : ∀ c ∈ cols, c.length = (paramNames .mkz).length := by
    intro c hc
    obtain ⟨j, _, rfl⟩ := List.mem_map.1 hc
    rfl
  obtain ⟨p, p1, p2, p3⟩ := C133_array .mkz cols hlen
  refine ⟨p, p1, by rw [p2]; simp [hcols], ?_⟩
  intro j o hj
  have hjl : j < p.items.length := (List.getElem?_eq_some_iff.1 hj).1
  have hjc : j < cols.length := by rw [p3.length_eq]; exact hjl
  have hjn : j < n := by simpa [hcols] using hjc
  have hL := (List.forall₂_iff_get.1 p3).2 j hjc hjl
  have ho : p.items.get ⟨j, hjl⟩ = o := (List.getElem?_eq_some_iff.1 hj).2
  have hcj : cols.get ⟨j, hjc⟩ = [gr.getD j 0, 0, s.getD j 0, beta.getD j 0] := by
    show cols[j] = _
    simp only [hcols, List.getElem_map, List.getElem_range, List.map_cons, List.map_nil]
    rw [List.getD_eq_getElem (List.replicate n (0 : ℝ)) 0 (by simpa using hjn), List.getElem_replicate]
  rw [ho, hcj] at hL
  obtain ⟨_, l2, l3, l4⟩ := hL
  simp only [paramNames] at l2
  rcases l2 with _ | ⟨a1, l2⟩
  rcases l2 with _ | ⟨a2, l2⟩
  rcases l2 with _ | ⟨a3, l2⟩
  rcases l2 with _ | ⟨a4, l2⟩
  refine ⟨a2, ?_⟩
  intro pct g sj bj e1 e2 e3 q1 q2 q3 hne hpos
  have v1 : gr.getD j 0 = g := by rw [List.getD_eq_getElem?_getD, e1]; rfl
  have v2 : s.getD j 0 = sj := by rw [List.getD_eq_getElem?_getD, e2]; rfl
  have v3 : beta.getD j 0 = bj := by rw [List.getD_eq_getElem?_getD, e3]; rfl
  rw [v1] at a1
  rw [v2] at a3
  rw [v3] at a4
  have hset : MKZSet o.val g 0 sj bj := by
    refine ⟨?_, a1, a2, a3, a4⟩
    unfold sameKeys
    simp only [Bool.and_eq_true, List.all_eq_true, decide_eq_true_eq]
    constructor
    · intro q hq
      have := (l3 q.1).1 (List.mem_map.2 ⟨q, hq, rfl⟩)
      simpa [paramNames, mkzKeys] using this
    · intro k hk
      exact (l3 k).2 (by simpa [paramNames, mkzKeys] using hk)
  obtain ⟨b1, _⟩ := param_values .mkz o.val _ bj pct q3 hne hpos (tauMKZ_pos g sj 0 bj q1 q2 q3) a4
    (stressOf_mkz o.val g 0 sj bj hset)
  rw [b1]
  congr 1
  apply List.map_congr_left
  intro e he
  have he' := hpos e he
  unfold tauMKZ
  rw [Real.rpow_zero]
  field_simp

/-- A container with two layers is saved and loaded. -/
example : ∃ c : PMulti (Dict ℝ), 2 ≤ c.items.length ∧ ∀ o ∈ c.items, GoodLayer .mkz o := by
  refine ⟨⟨.mkz, .mkz, [⟨.mkz, [("gamma_ref", 1), ("s", 2), ("beta", 3), ("Gmax", 4)]⟩,
    ⟨.mkz, [("s", 2), ("gamma_ref", 5), ("beta", 3), ("Gmax", 4)]⟩], 2⟩, by simp, ?_⟩
  intro o ho
  simp only [List.mem_cons, List.not_mem_nil, or_false] at ho
  rcases ho with rfl | rfl
  · exact ⟨by intro k; simp [paramNames], by simp⟩
  · exact ⟨by intro k; simp only [paramNames, List.map_cons, List.map_nil, List.mem_cons, List.not_mem_nil, or_false]; tauto,
      by simp⟩

end Verif
