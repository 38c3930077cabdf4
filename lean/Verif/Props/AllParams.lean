import Verif.Model.AllParams
import Verif.Props.ParamSets
import Verif.Props.Fit
import Verif.Props.Genetic

set_option linter.unusedSectionVars false
set_option linter.unusedVariables false

/-!
Property C135: `get_all_HH_x_params` and `get_all_H4_x_params`.
-/

namespace Verif

open Spec (paramNames LayerHas GoodLayer sameDict ProperCurve lowered Schedule RespectsBounds)

namespace Spec

/-- All curves are proper damping curves. -/
def ProperAll (σ : CStore ℝ) (addrs : List Nat) : Prop := ∀ a ∈ addrs, ∃ d, σ[a]? = some d ∧ ProperCurve d

/-- Serial, or parallel in an order that treats every layer once. -/
def GoodPar (n : Nat) : Option (List (List Nat)) → Prop
  | none => True
  | some s => Schedule n s

/-- The name of the file, if one is to be written: the name given, else model, `_x_` and the name of the site. -/
def fileName (m : SoilModel) (stem txt : Option (List Char)) (n : List Char) : Prop :=
  match txt with
  | some t => n = t
  | none => ∃ s, stem = some s ∧ outputFileName (match m with | .hh => "HH".toList | .mkz => "H4".toList) "txt".toList (some s) = .ok n

end Spec

open Spec (ProperAll GoodPar fileName)

theorem fit_names (m : SoilModel) (opt : Optimiser) (lo hi : ℝ) (ho : RespectsBounds opt lo hi) (d : List (ℝ × ℝ)) (p : Dict ℝ)
    (h : m.fit opt d = .ok p) : p.map Prod.fst = paramNames m ∧
      ∀ q ∈ p, q.1 ≠ "Gmax" ∨ m = .hh → (10 : ℝ) ^ lo ≤ q.2 ∧ q.2 ≤ (10 : ℝ) ^ hi ∧ 0 < q.2 := by
  rw [← keys_names]
  cases m with
  | hh =>
    obtain ⟨h1, h2, _⟩ := C119_hh opt lo hi d p ho h
    exact ⟨h1, fun q hq _ => h2 q hq⟩
  | mkz =>
    obtain ⟨h1, _, h2, _⟩ := C119_h4 opt lo hi d p ho h
    refine ⟨h1, fun q hq hg => h2 q hq ?_⟩
    rcases hg with hg | hg
    · exact hg
    · cases hg

theorem names_nodup (m : SoilModel) : (paramNames m).Nodup := by cases m <;> simp [paramNames]

/-- The fits of all layers: those of the lowered curves, in order. -/
theorem fitAll_layers (fit : List (ℝ × ℝ) → Except PyErr (Dict ℝ)) (σ : CStore ℝ) (addrs : List Nat) (par : Option (List (List Nat)))
    (hp : ProperAll σ addrs) (hs : GoodPar addrs.length par) (ds : List (Dict ℝ)) (h : (fitAll fit σ addrs par).1 = .ok ds) :
    List.Forall₂ (fun a d => fit (lowered (σ[a]?.getD [])) = .ok d) addrs ds := by
  have key : (fitAll fit σ addrs none).1 = .ok ds := by
    cases par with
    | none => exact h
    | some s => exact ((C68_same_partial fit σ addrs s hs hp).1 ds).2 h
  obtain ⟨i1, _⟩ := fitSerial_proper fit σ addrs σ (fun a ha => by
    obtain ⟨d, h1, h2⟩ := hp a ha; exact ⟨d, h1, h2, Or.inl h1⟩)
  rw [fitAll_checked fit σ addrs none hp] at key
  simp only at key
  rw [i1] at key
  exact mapM_all_ok _ (fun a r => fit (lowered (σ[a]?.getD [])) = .ok r) (fun _ _ hx => hx) addrs ds key

theorem fitAll_total (fit : List (ℝ × ℝ) → Except PyErr (Dict ℝ)) (σ : CStore ℝ) (addrs : List Nat) (par : Option (List (List Nat)))
    (hp : ProperAll σ addrs) (hs : GoodPar addrs.length par) (hf : ∀ d, d ≠ [] → ∃ r, fit d = .ok r) :
    ∃ ds, (fitAll fit σ addrs par).1 = .ok ds := by
  obtain ⟨i1, _⟩ := fitSerial_proper fit σ addrs σ (fun a ha => by
    obtain ⟨d, h1, h2⟩ := hp a ha; exact ⟨d, h1, h2, Or.inl h1⟩)
  have hm : ∀ l : List Nat, (∀ a ∈ l, ∃ d, σ[a]? = some d ∧ ProperCurve d) →
      ∃ ds, l.mapM (fun a => fit (lowered (σ[a]?.getD []))) = .ok ds := by
    intro l
    induction l with
    | nil => intro _; exact ⟨[], rfl⟩
    | cons a l ih =>
      intro hl
      obtain ⟨ds, hds⟩ := ih fun b hb => hl b (List.mem_cons_of_mem _ hb)
      obtain ⟨d, hd, hpc⟩ := hl a List.mem_cons_self
      obtain ⟨r, hr⟩ := hf (lowered d) (properCurve_lowered d hpc).nonempty
      refine ⟨r :: ds, ?_⟩
      rw [List.mapM_cons, hds, hd]
      simp only [Option.getD_some, hr]
      rfl
  obtain ⟨ds, hds⟩ := hm addrs hp
  have key : (fitAll fit σ addrs none).1 = .ok ds := by
    rw [fitAll_checked fit σ addrs none hp]
    simp only
    rw [i1, hds]
  cases par with
  | none => exact ⟨ds, key⟩
  | some s => exact ⟨ds, ((C68_same_partial fit σ addrs s hs hp).1 ds).1 key⟩

/-- What a successful call has done. -/
theorem allParams_inv (m : SoilModel) (opt : Optimiser) (σ : CStore ℝ) (addrs : List Nat) (par : Option (List (List Nat)))
    (stem : Option (List Char)) (saveTxt saveFig : Bool) (txt fig : Option (List Char)) (p : PMulti (Dict ℝ))
    (h : (allParams m opt σ addrs par stem saveTxt saveFig txt fig).result = .ok p) :
    ∃ ds, (fitAll (m.fit opt) σ addrs par).1 = .ok ds ∧ newParams m (.list (ds.map .dict)) = .ok p ∧
      (allParams m opt σ addrs par stem saveTxt saveFig txt fig).store = (fitAll (m.fit opt) σ addrs par).2 ∧
      (saveTxt = false → (allParams m opt σ addrs par stem saveTxt saveFig txt fig).written = none) ∧
      (saveTxt = true → ∃ n f, paramFile m ds = .ok f ∧ fileName m stem txt n ∧
        (allParams m opt σ addrs par stem saveTxt saveFig txt fig).written = some (n, f)) := by
  unfold allParams at h ⊢
  cases h1 : needName m "png" stem saveFig fig with
  | error e => rw [h1] at h; cases h
  | ok nf =>
    rw [h1] at h
    simp only at h ⊢
    cases h2 : needName m "txt" stem saveTxt txt with
    | error e => rw [h2] at h; cases h
    | ok name =>
      rw [h2] at h
      simp only at h ⊢
      cases h3 : fitAll (m.fit opt) σ addrs par with
      | mk r σ' =>
        rw [h3] at h
        cases r with
        | error e => cases h
        | ok ds =>
          simp only at h ⊢
          refine ⟨ds, rfl, ?_⟩
          cases saveTxt with
          | false =>
            simp only at h ⊢
            exact ⟨h, trivial, (fun _ => trivial), fun hc => by cases hc⟩
          | true =>
            cases txt with
            | some t =>
              have : name = some t := by
                unfold needName at h2
                exact (Except.ok.inj h2).symm
              subst this
              simp only at h ⊢
              cases h4 : paramFile m ds with
              | error e => rw [h4] at h; cases h
              | ok f =>
                rw [h4] at h
                simp only at h ⊢
                exact ⟨h, trivial, (fun hc => by cases hc), fun _ => ⟨t, f, rfl, rfl, rfl⟩⟩
            | none =>
              unfold needName at h2
              simp only at h2
              cases h5 : outputFileName m.pre "txt".toList stem with
              | error e => rw [h5] at h2; cases h2
              | ok n =>
                rw [h5] at h2
                have : name = some n := (Except.ok.inj h2).symm
                subst this
                simp only at h ⊢
                cases h4 : paramFile m ds with
                | error e => rw [h4] at h; cases h
                | ok f =>
                  rw [h4] at h
                  simp only at h ⊢
                  refine ⟨h, trivial, (fun hc => by cases hc), fun _ => ⟨n, f, rfl, ?_, rfl⟩⟩
                  cases stem with
                  | none => cases h5
                  | some s => exact ⟨s, rfl, by cases m <;> exact h5⟩

/-! ## C135 -/

/-- A successful call gives one parameter set per curve, in the order of the curves, fitted to the curve with its small-strain
damping removed, with the documented names and within the bounds; serially and in parallel alike. -/
theorem C135_layers (m : SoilModel) (opt : Optimiser) (lo hi : ℝ) (σ : CStore ℝ) (addrs : List Nat)
    (par : Option (List (List Nat))) (stem : Option (List Char)) (saveTxt saveFig : Bool) (txt fig : Option (List Char))
    (ho : RespectsBounds opt lo hi) (hp : ProperAll σ addrs) (hs : GoodPar addrs.length par) (p : PMulti (Dict ℝ))
    (h : (allParams m opt σ addrs par stem saveTxt saveFig txt fig).result = .ok p) :
    p.nLayer = addrs.length ∧ List.Forall₂ (fun a (o : PObj (Dict ℝ)) => ∃ d, σ[a]? = some d ∧ m.fit opt (lowered d) = .ok o.val ∧
      GoodLayer m o ∧ ∀ q ∈ o.val, q.1 ≠ "Gmax" ∨ m = .hh → (10 : ℝ) ^ lo ≤ q.2 ∧ q.2 ≤ (10 : ℝ) ^ hi ∧ 0 < q.2) addrs p.items := by
  obtain ⟨ds, h1, h2, _⟩ := allParams_inv m opt σ addrs par stem saveTxt saveFig txt fig p h
  have hf := fitAll_layers (m.fit opt) σ addrs par hp hs ds h1
  have hgood : ∀ d ∈ ds, (∀ k, k ∈ d.map Prod.fst ↔ k ∈ paramNames m) ∧ (d.map Prod.fst).Nodup := by
    intro d hd
    obtain ⟨i, hi', rfl⟩ := List.mem_iff_getElem.1 hd
    have := (List.forall₂_iff_get.1 hf).2 i (by rw [hf.length_eq]; exact hi') hi'
    have hn := (fit_names m opt lo hi ho _ _ this).1
    simp only [List.get_eq_getElem] at hn
    rw [hn]
    exact ⟨fun k => Iff.rfl, names_nodup m⟩
  have hnp := newParamList_dicts m ds hgood
  have h2' : newParamList m (ds.map .dict) = .ok p := h2
  rw [hnp] at h2'
  have hpe := Except.ok.inj h2'
  subst hpe
  refine ⟨by simp [hf.length_eq], ?_⟩
  show List.Forall₂ _ addrs (ds.map fun d => (⟨m.elem, d⟩ : PObj (Dict ℝ)))
  rw [List.forall₂_map_right_iff]
  rw [List.forall₂_iff_get] at hf ⊢
  refine ⟨hf.1, fun i a b => ?_⟩
  have h3 := hf.2 i a b
  obtain ⟨d, hd, hpc⟩ := hp (addrs.get ⟨i, a⟩) (List.get_mem _ _)
  rw [hd, Option.getD_some] at h3
  exact ⟨d, hd, h3, hgood _ (List.get_mem _ _), (fit_names m opt lo hi ho _ _ h3).2⟩

/-- Whatever the order in which the processes work: the parallel call succeeds exactly if the serial one does, with the same
result and the same file. -/
theorem C135_parallel (m : SoilModel) (opt : Optimiser) (σ : CStore ℝ) (addrs : List Nat) (sched : List (List Nat))
    (stem : Option (List Char)) (saveTxt saveFig : Bool) (txt fig : Option (List Char)) (hp : ProperAll σ addrs)
    (hs : Schedule addrs.length sched) (p : PMulti (Dict ℝ))
    (h : (allParams m opt σ addrs none stem saveTxt saveFig txt fig).result = .ok p) :
    (allParams m opt σ addrs (some sched) stem saveTxt saveFig txt fig).result = .ok p ∧
    (allParams m opt σ addrs (some sched) stem saveTxt saveFig txt fig).written =
      (allParams m opt σ addrs none stem saveTxt saveFig txt fig).written ∧
    (allParams m opt σ addrs (some sched) stem saveTxt saveFig txt fig).store = σ := by
  obtain ⟨ds, h1, _⟩ := allParams_inv m opt σ addrs none stem saveTxt saveFig txt fig p h
  have h2 := ((C68_same_partial (m.fit opt) σ addrs sched hs hp).1 ds).1 h1
  have h3 := (C68_same_partial (m.fit opt) σ addrs sched hs hp).2.2
  have e1 : fitAll (m.fit opt) σ addrs none = (.ok ds, (fitAll (m.fit opt) σ addrs none).2) := Prod.ext h1 rfl
  have e2 : fitAll (m.fit opt) σ addrs (some sched) = (.ok ds, σ) := Prod.ext h2 h3
  unfold allParams at h ⊢
  rw [e1] at h ⊢
  rw [e2]
  cases q1 : needName m "png" stem saveFig fig with
  | error e => rw [q1] at h; cases h
  | ok nf =>
    rw [q1] at h
    simp only at h ⊢
    cases q2 : needName m "txt" stem saveTxt txt with
    | error e => rw [q2] at h; cases h
    | ok name =>
      rw [q2] at h
      simp only at h ⊢
      cases saveTxt with
      | false => exact ⟨h, rfl, rfl⟩
      | true =>
        cases name with
        | none => exact ⟨h, rfl, rfl⟩
        | some n =>
          simp only at h ⊢
          cases q3 : paramFile m ds with
          | error e => rw [q3] at h; cases h
          | ok f => rw [q3] at h; exact ⟨h, rfl, rfl⟩

/-- The call succeeds for proper curves if the optimiser does and a file name is given or known wherever one is needed. -/
theorem C135_succeeds (m : SoilModel) (opt : Optimiser) (lo hi : ℝ) (σ : CStore ℝ) (addrs : List Nat)
    (par : Option (List (List Nat))) (stem : Option (List Char)) (saveTxt saveFig : Bool) (txt fig : Option (List Char))
    (ho : RespectsBounds opt lo hi) (htot : ∀ n data, n ≠ 0 → ∃ r, opt n data = .ok r) (hp : ProperAll σ addrs)
    (hs : GoodPar addrs.length par) (hne : addrs ≠ []) (h1 : saveTxt = true → txt = none → stem ≠ none)
    (h2 : saveFig = true → fig = none → stem ≠ none) :
    ∃ p, (allParams m opt σ addrs par stem saveTxt saveFig txt fig).result = .ok p := by
  have hneed : ∀ ext need given, (need = true → given = none → stem ≠ none) → ∃ n, needName m ext stem need given = .ok n ∧
      (need = true → n ≠ none) := by
    intro ext need given hh
    cases need with
    | false => exact ⟨given, rfl, fun hc => by cases hc⟩
    | true =>
      cases given with
      | some g => exact ⟨some g, rfl, fun _ => by simp⟩
      | none =>
        obtain ⟨s, hs⟩ := Option.ne_none_iff_exists'.1 (hh rfl rfl)
        subst hs
        exact ⟨_, rfl, fun _ => by simp⟩
  obtain ⟨nf, e1, _⟩ := hneed "png" saveFig fig h2
  obtain ⟨nt, e2, e2'⟩ := hneed "txt" saveTxt txt h1
  have hfit : ∀ d, d ≠ [] → ∃ r, m.fit opt d = .ok r := by
    intro d hd
    cases m with
    | hh => exact (C119_success opt lo hi d ho hd htot).1
    | mkz => exact (C119_success opt lo hi d ho hd htot).2
  obtain ⟨ds, e3⟩ := fitAll_total (m.fit opt) σ addrs par hp hs hfit
  have hf := fitAll_layers (m.fit opt) σ addrs par hp hs ds e3
  have hgood : ∀ d ∈ ds, (∀ k, k ∈ d.map Prod.fst ↔ k ∈ paramNames m) ∧ (d.map Prod.fst).Nodup := by
    intro d hd
    obtain ⟨i, hi', rfl⟩ := List.mem_iff_getElem.1 hd
    have := (List.forall₂_iff_get.1 hf).2 i (by rw [hf.length_eq]; exact hi') hi'
    have hn := (fit_names m opt lo hi ho _ _ this).1
    simp only [List.get_eq_getElem] at hn
    rw [hn]
    exact ⟨fun k => Iff.rfl, names_nodup m⟩
  have hnp : newParams m (.list (ds.map .dict)) = .ok _ := newParamList_dicts m ds hgood
  have hdne : ds ≠ [] := by
    intro hc
    rw [hc] at hf
    exact hne (List.length_eq_zero_iff.1 hf.length_eq)
  have e4 : fitAll (m.fit opt) σ addrs par = (.ok ds, (fitAll (m.fit opt) σ addrs par).2) := Prod.ext e3 rfl
  unfold allParams
  rw [e1, e2, e4]
  simp only
  cases saveTxt with
  | false => exact ⟨_, hnp⟩
  | true =>
    obtain ⟨n, hn⟩ := Option.ne_none_iff_exists'.1 (e2' rfl)
    subst hn
    simp only
    obtain ⟨r1, r2, rs, hsv, _⟩ := save_rows m ⟨m.multi, m.elem, ds.map fun d => ⟨m.elem, d⟩, ds.length⟩ (by simpa using hdne) (by
      intro o ho'
      obtain ⟨d, hd, rfl⟩ := List.mem_map.1 ho'
      exact hgood d hd)
    have hpf : paramFile m ds = .ok (.mat (r1 :: r2 :: rs)) := by
      unfold paramFile
      rw [if_neg hdne]
      unfold saveParams at hsv
      have hmap : (ds.map fun d => (⟨m.elem, d⟩ : PObj (Dict ℝ))).map PObj.val = ds := by
        rw [List.map_map]; exact List.map_id ds
      simp only [hmap] at hsv
      exact hsv
    rw [hpf]
    exact ⟨_, hnp⟩

/-- Without a file name, given or known from the curves, a call that is to save something fails before any fit: no array is
changed, nothing is written. -/
theorem C135_no_name (m : SoilModel) (opt : Optimiser) (σ : CStore ℝ) (addrs : List Nat) (par : Option (List (List Nat)))
    (saveTxt saveFig : Bool) (txt fig : Option (List Char)) (h : saveTxt = true ∧ txt = none ∨ saveFig = true ∧ fig = none) :
    allParams m opt σ addrs par none saveTxt saveFig txt fig = ⟨.error .valueError, σ, none⟩ := by
  unfold allParams
  by_cases hf : saveFig = true ∧ fig = none
  · obtain ⟨rfl, rfl⟩ := hf
    rfl
  · rcases h with ⟨rfl, rfl⟩ | h
    · cases saveFig with
      | false => rfl
      | true =>
        cases fig with
        | none => exact absurd ⟨rfl, rfl⟩ hf
        | some g => rfl
    · exact absurd h hf

/-- The file: it has the name given, else one made of the model and the site, and is the file that `save_txt` of the result
would write. -/
theorem C135_written (m : SoilModel) (opt : Optimiser) (lo hi : ℝ) (σ : CStore ℝ) (addrs : List Nat)
    (par : Option (List (List Nat))) (stem : Option (List Char)) (saveTxt saveFig : Bool) (txt fig : Option (List Char))
    (ho : RespectsBounds opt lo hi) (hp : ProperAll σ addrs) (hs : GoodPar addrs.length par) (p : PMulti (Dict ℝ))
    (h : (allParams m opt σ addrs par stem saveTxt saveFig txt fig).result = .ok p) :
    (saveTxt = false → (allParams m opt σ addrs par stem saveTxt saveFig txt fig).written = none) ∧
    (saveTxt = true → ∃ n f, (allParams m opt σ addrs par stem saveTxt saveFig txt fig).written = some (n, f) ∧
      fileName m stem txt n ∧ saveParams m p = .ok f) := by
  obtain ⟨ds, h1, h2, _, h3, h4⟩ := allParams_inv m opt σ addrs par stem saveTxt saveFig txt fig p h
  refine ⟨h3, fun hc => ?_⟩
  obtain ⟨n, f, q1, q2, q3⟩ := h4 hc
  refine ⟨n, f, q3, q2, ?_⟩
  have hf := fitAll_layers (m.fit opt) σ addrs par hp hs ds h1
  have hgood : ∀ d ∈ ds, (∀ k, k ∈ d.map Prod.fst ↔ k ∈ paramNames m) ∧ (d.map Prod.fst).Nodup := by
    intro d hd
    obtain ⟨i, hi', rfl⟩ := List.mem_iff_getElem.1 hd
    have := (List.forall₂_iff_get.1 hf).2 i (by rw [hf.length_eq]; exact hi') hi'
    have hn := (fit_names m opt lo hi ho _ _ this).1
    simp only [List.get_eq_getElem] at hn
    rw [hn]
    exact ⟨fun k => Iff.rfl, names_nodup m⟩
  have h2' : newParamList m (ds.map .dict) = .ok p := h2
  rw [newParamList_dicts m ds hgood] at h2'
  have hpe := Except.ok.inj h2'
  subst hpe
  unfold paramFile at q1
  by_cases hd : ds = []
  · rw [if_pos hd] at q1; cases q1
  · rw [if_neg hd] at q1
    unfold saveParams
    have hmap : (ds.map fun d => (⟨m.elem, d⟩ : PObj (Dict ℝ))).map PObj.val = ds := by
      rw [List.map_map]; exact List.map_id ds
    simp only [hmap]
    exact q1

/-- For at least two curves the file, loaded by the container of the model, gives the parameters returned.  Missing: one curve
(`C135_one_curve_violated`) and the rounding to six significant digits in the file. -/
theorem C135_reload_partial (m : SoilModel) (opt : Optimiser) (lo hi : ℝ) (σ : CStore ℝ) (addrs : List Nat)
    (par : Option (List (List Nat))) (stem : Option (List Char)) (saveFig : Bool) (txt fig : Option (List Char))
    (ho : RespectsBounds opt lo hi) (hp : ProperAll σ addrs) (hs : GoodPar addrs.length par) (h2 : 2 ≤ addrs.length)
    (p : PMulti (Dict ℝ)) (h : (allParams m opt σ addrs par stem true saveFig txt fig).result = .ok p) :
    ∃ n f q, (allParams m opt σ addrs par stem true saveFig txt fig).written = some (n, f) ∧
      newParams m (.file f) = .ok q ∧ q.nLayer = p.nLayer ∧
      List.Forall₂ (fun o o' => sameDict (PObj.val o') (PObj.val o)) p.items q.items := by
  obtain ⟨_, hw⟩ := C135_written m opt lo hi σ addrs par stem true saveFig txt fig ho hp hs p h
  obtain ⟨n, f, w1, _, w3⟩ := hw rfl
  obtain ⟨l1, l2⟩ := C135_layers m opt lo hi σ addrs par stem true saveFig txt fig ho hp hs p h
  have hlen : p.items.length = addrs.length := l2.length_eq.symm
  obtain ⟨f', q, s1, s2, s3, s4⟩ := C133_save_load_partial m p (by omega) (by
    intro o ho'
    obtain ⟨i, hi', rfl⟩ := List.mem_iff_getElem.1 ho'
    obtain ⟨d, _, _, g, _⟩ := (List.forall₂_iff_get.1 l2).2 i (by omega) hi'
    exact g)
  rw [w3] at s1
  cases s1
  exact ⟨n, f, q, w1, s2, by rw [s3, l1, hlen], s4⟩

/-- C135 fails for one curve: the file has one column and cannot be loaded (TypeError). -/
theorem C135_one_curve_violated (m : SoilModel) (opt : Optimiser) (lo hi : ℝ) (σ : CStore ℝ) (a : Nat)
    (par : Option (List (List Nat))) (stem : Option (List Char)) (saveFig : Bool) (txt fig : Option (List Char))
    (ho : RespectsBounds opt lo hi) (hp : ProperAll σ [a]) (hs : GoodPar 1 par) (p : PMulti (Dict ℝ))
    (h : (allParams m opt σ [a] par stem true saveFig txt fig).result = .ok p) :
    ∃ n f, (allParams m opt σ [a] par stem true saveFig txt fig).written = some (n, f) ∧
      newParams m (.file f) = .error .typeError := by
  obtain ⟨_, hw⟩ := C135_written m opt lo hi σ [a] par stem true saveFig txt fig ho hp hs p h
  obtain ⟨n, f, w1, _, w3⟩ := hw rfl
  obtain ⟨l1, l2⟩ := C135_layers m opt lo hi σ [a] par stem true saveFig txt fig ho hp hs p h
  rcases hi : p.items with _ | ⟨o, _ | ⟨o', l⟩⟩
  · rw [hi] at l2; cases l2
  · rw [hi] at l2
    rcases l2 with _ | ⟨⟨d, _, _, g, _⟩, _⟩
    obtain ⟨f', s1, s2⟩ := C133_one_layer_violated m p o hi g
    rw [w3] at s1
    cases s1
    exact ⟨n, f, w1, s2⟩
  · rw [hi] at l2
    rcases l2 with _ | ⟨_, l2⟩
    cases l2

/-- Two curves, fitted by the genetic search and saved under the default name. -/
example : ∃ p, (allParams .mkz (fun n data => gaDeap ⟨fun _ _ => 1 / 2, fun _ _ => 0, fun _ _ _ => none⟩ (fun _ => .ok 0) n
    (-4) 6 3 2) [[(1, 2), (3, 5)], [(1, 0), (2, 4)]] [1, 0] none (some "curve_A".toList) true false none none).result = .ok p ∧
      p.nLayer = 2 := by
  have hu : Spec.UnitDraws ⟨fun _ _ => 1 / 2, fun _ _ => 0, fun _ _ _ => none⟩ := by intro j i; norm_num
  have hproper : ProperAll [[(1, 2), (3, 5)], [(1, 0), (2, 4)]] [1, 0] := by
    intro a ha
    simp only [List.mem_cons, List.not_mem_nil, or_false] at ha
    rcases ha with rfl | rfl
    · exact ⟨[(1, 0), (2, 4)], rfl, by simp, by simp, by simp⟩
    · exact ⟨[(1, 2), (3, 5)], rfl, by simp, by simp, by simp; norm_num⟩
  have hr := C134_optimiser ⟨fun _ _ => 1 / 2, fun _ _ => 0, fun _ _ _ => none⟩ (fun _ _ => .ok 0) 3 2 (-4) 6 (by norm_num) hu
  obtain ⟨p, hp⟩ := C135_succeeds .mkz _ (-4) 6 _ _ none (some "curve_A".toList) true false none none hr (by
    intro n data hn
    exact C134_succeeds ⟨fun _ _ => 1 / 2, fun _ _ => 0, fun _ _ _ => none⟩ (fun _ => .ok 0) n 3 2 (-4) 6
      (by norm_num) hu hn (by decide) (fun p _ _ => ⟨0, rfl⟩)) hproper trivial (by simp) (by simp) (by simp)
  exact ⟨p, hp, by
    rw [(C135_layers .mkz _ (-4) 6 _ _ none (some "curve_A".toList) true false none none hr hproper trivial p hp).1]; rfl⟩

end Verif
