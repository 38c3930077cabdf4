import Verif.Proof.Containers

/-!
Properties C13–C15: list-like containers and dictionary-like parameter objects.
-/

set_option linter.unusedSectionVars false
set_option linter.unusedVariables false

namespace Verif

open Spec

variable {P : Type} [DecidableEq P]

/-! ## C13 -/

/-- Construction succeeds exactly when every element is an array the element class
accepts or an instance of it, and then the invariant holds with one curve per element. -/
theorem C13_construct (cls : MultiCls) (ec : CurveCls) (conv : CurveCls → P → Except PyErr P)
    (l : List (CurveArg P)) (m : Multi P) (h : Multi.mk' cls ec conv l = .ok m) :
    MInv m ∧ m.cls = cls ∧ m.elemClass = ec ∧
    List.Forall₂ (fun a c => a = .obj c ∨ ∃ x v, a = .arr x ∧ conv ec x = .ok v ∧ c = ⟨ec, v⟩) l m.curves := by
  unfold Multi.mk' at h
  cases hl : l.mapM (convArg ec conv) with
  | error e => rw [hl] at h; cases h
  | ok cs =>
    rw [hl] at h
    cases h
    have key : ∀ (l : List (CurveArg P)) (cs : List (CurveObj P)), l.mapM (convArg ec conv) = .ok cs →
        List.Forall₂ (fun a c => a = .obj c ∨ ∃ x v, a = .arr x ∧ conv ec x = .ok v ∧ c = ⟨ec, v⟩) l cs ∧
        ∀ c ∈ cs, c.cls.isInst ec = true := by
      intro l
      induction l with
      | nil => intro cs h; cases h; exact ⟨.nil, by simp⟩
      | cons a l ih =>
        intro cs h
        rw [List.mapM_cons] at h
        cases ha : convArg ec conv a with
        | error e => rw [ha] at h; cases h
        | ok c =>
          cases hr : l.mapM (convArg ec conv) with
          | error e => rw [ha, hr] at h; cases h
          | ok cs' =>
            rw [ha, hr] at h
            cases h
            obtain ⟨h1, h2⟩ := ih cs' hr
            cases a with
            | arr x =>
              simp only [convArg] at ha
              cases hc : conv ec x with
              | error e => rw [hc] at ha; cases ha
              | ok v =>
                rw [hc] at ha
                cases ha
                refine ⟨.cons (.inr ⟨x, v, rfl, hc, rfl⟩) h1, ?_⟩
                intro c hc
                rcases List.mem_cons.1 hc with rfl | hc
                · simp [CurveCls.isInst]
                · exact h2 c hc
            | obj x =>
              simp only [convArg] at ha
              split_ifs at ha with hi
              cases ha
              refine ⟨.cons (.inl rfl) h1, ?_⟩
              intro c hc
              rcases List.mem_cons.1 hc with rfl | hc
              · exact hi
              · exact h2 c hc
            | other => cases ha
    obtain ⟨h1, h2⟩ := key l cs hl
    exact ⟨⟨rfl, h2⟩, rfl, rfl, h1⟩

/-- An element of another type makes the constructor raise TypeError. -/
theorem C13_construct_rejects (cls : MultiCls) (ec : CurveCls) (conv : CurveCls → P → Except PyErr P)
    (good : List (CurveObj P)) (bad : CurveArg P) (rest : List (CurveArg P))
    (hg : ∀ c ∈ good, c.cls.isInst ec = true)
    (hb : bad = .other ∨ ∃ c, bad = .obj c ∧ c.cls.isInst ec = false) :
    Multi.mk' cls ec conv (good.map .obj ++ bad :: rest) = .error .typeError := by
  unfold Multi.mk'
  have : (good.map CurveArg.obj ++ bad :: rest).mapM (convArg ec conv) = .error .typeError := by
    induction good with
    | nil =>
      rw [List.map_nil, List.nil_append, List.mapM_cons]
      rcases hb with rfl | ⟨c, rfl, hc⟩
      · rfl
      · simp [convArg, hc, bind, Except.bind]
    | cons c good ih =>
      rw [List.map_cons, List.cons_append, List.mapM_cons, ih (fun x hx => hg x (by simp [hx]))]
      simp [convArg, hg c (by simp), bind, Except.bind]
  rw [this]; rfl

/-- One operation other than a slice deletion: same contents and result as on the
reference list, and the invariant is kept. -/
theorem C13_step (m : Multi P) (hcls : m.elemClass = m.cls.defaultElem) (h : MInv m) (op : MOp P)
    (hop : noSliceDel op) :
    (m.step op).1.curves = (listStep m.cls m.elemClass m.curves op).1 ∧
    (m.step op).2 = (listStep m.cls m.elemClass m.curves op).2 ∧
    MInv (m.step op).1 ∧ (m.step op).1.cls = m.cls ∧ (m.step op).1.elemClass = m.elemClass := by
  obtain ⟨cls, ec, l, n⟩ := m
  obtain ⟨hc, ht⟩ := h
  simp only at hcls hc ht
  subst hc
  cases op with
  | get i =>
    simp only [Multi.step, listStep, pyIndex_pos]
    cases hp : pos l.length i with
    | none => exact ⟨rfl, rfl, ⟨rfl, ht⟩, rfl, rfl⟩
    | some k =>
      have := pos_lt hp
      simp only [Option.bind_some, List.getElem?_eq_getElem this]
      exact ⟨trivial, trivial, ⟨rfl, ht⟩, trivial, trivial⟩
  | getSlice s =>
    simp only [Multi.step, listStep]
    cases hs : sliceIdx l.length s with
    | error e => exact ⟨rfl, rfl, ⟨rfl, ht⟩, rfl, rfl⟩
    | ok idx =>
      have hm := mapM_obj cls.defaultElem (fun _ _ => .error .other) (getIdx l idx)
        (fun c hc => by rw [← hcls]; exact ht c (mem_getIdx hc))
      simp only [Multi.mk', hm, Except.map, hcls]
      exact ⟨trivial, trivial, ⟨rfl, by rw [← hcls]; exact ht⟩, trivial, trivial⟩
  | getBad => exact ⟨rfl, rfl, ⟨rfl, ht⟩, rfl, rfl⟩
  | set i x =>
    cases x with
    | arr x => exact ⟨rfl, rfl, ⟨rfl, ht⟩, rfl, rfl⟩
    | other => exact ⟨rfl, rfl, ⟨rfl, ht⟩, rfl, rfl⟩
    | obj c =>
      simp only [Multi.step, listStep, CurveArg.inst]
      split_ifs with hi
      · simp only [pyIndex_pos]
        cases hp : pos l.length i with
        | none => exact ⟨rfl, rfl, ⟨rfl, ht⟩, rfl, rfl⟩
        | some k =>
          refine ⟨set_eq_take_drop l k c (pos_lt hp), rfl, ⟨by simp, ?_⟩, rfl, rfl⟩
          intro d hd
          rcases List.mem_or_eq_of_mem_set hd with h | rfl
          · exact ht d h
          · exact hi
      · exact ⟨rfl, rfl, ⟨rfl, ht⟩, rfl, rfl⟩
  | setSlice s x => exact ⟨rfl, rfl, ⟨rfl, ht⟩, rfl, rfl⟩
  | del i =>
    simp only [Multi.step, listStep, pyIndex_pos]
    cases hp : pos l.length i with
    | none => exact ⟨rfl, rfl, ⟨rfl, ht⟩, rfl, rfl⟩
    | some k =>
      have hk := pos_lt hp
      refine ⟨List.eraseIdx_eq_take_drop_succ l k, rfl, ⟨?_, ?_⟩, rfl, rfl⟩
      · simp only [List.length_eraseIdx, hk, if_true]; omega
      · intro d hd; exact ht d (List.mem_of_mem_eraseIdx hd)
  | delSlice s => exact absurd hop (by simp [noSliceDel])
  | append x =>
    cases x with
    | arr x => exact ⟨rfl, rfl, ⟨rfl, ht⟩, rfl, rfl⟩
    | other => exact ⟨rfl, rfl, ⟨rfl, ht⟩, rfl, rfl⟩
    | obj c =>
      simp only [Multi.step, listStep, CurveArg.inst]
      split_ifs with hi
      · refine ⟨rfl, rfl, ⟨by simp, ?_⟩, rfl, rfl⟩
        intro d hd
        rcases List.mem_append.1 hd with h | h
        · exact ht d h
        · simp only [List.mem_singleton] at h; subst h; exact hi
      · exact ⟨rfl, rfl, ⟨rfl, ht⟩, rfl, rfl⟩
  | len =>
    simp only [Multi.step, listStep]
    rw [if_neg (by omega)]
    exact ⟨rfl, by simp, ⟨rfl, ht⟩, rfl, rfl⟩
  | contains x => exact ⟨rfl, rfl, ⟨rfl, ht⟩, rfl, rfl⟩

/-- C13 for histories without slice deletions, of containers whose element class is the
one their class declares: contents, every result and the layer count are those of a
typed Python list.  Missing from the full property: slice deletions of other than one
element (`C13_slice_delete_iff`, `C13_slice_delete_violated`) and base-class containers
with a custom element class (`C13_slice_class_violated`). -/
theorem C13_history_partial (ops : List (MOp P)) : ∀ (m : Multi P), m.elemClass = m.cls.defaultElem → MInv m →
    (∀ op ∈ ops, noSliceDel op) →
    (m.run ops).1.curves = (listRun m.cls m.elemClass m.curves ops).1 ∧
    (m.run ops).2 = (listRun m.cls m.elemClass m.curves ops).2 ∧ MInv (m.run ops).1 := by
  induction ops with
  | nil => intro m _ h _; exact ⟨rfl, rfl, h⟩
  | cons op ops ih =>
    intro m hcls h hops
    obtain ⟨h1, h2, h3, h4, h5⟩ := C13_step m hcls h op (hops op (by simp))
    obtain ⟨g1, g2, g3⟩ := ih (m.step op).1 (by rw [h4, h5, hcls]) h3 (fun o ho => hops o (by simp [ho]))
    rw [h4, h5, h1] at g1 g2
    refine ⟨?_, ?_, g3⟩
    · simp only [Multi.run, listRun]; exact g1
    · simp only [Multi.run, listRun, h2, g2]

/-- A slice deletion keeps the layer count right exactly when the slice selects one
element. -/
theorem C13_slice_delete_iff (m : Multi P) (h : MInv m) (s : Slice) (idx : List Nat)
    (hs : sliceIdx m.curves.length s = .ok idx) :
    (m.step (.delSlice s)).1.curves = delIdx m.curves idx ∧
    (MInv (m.step (.delSlice s)).1 ↔ idx.length = 1) := by
  have hl := delIdx_length m.curves idx (sliceIdx_props hs).1 (sliceIdx_props hs).2
  simp only [Multi.step, hs]
  refine ⟨trivial, ?_⟩
  constructor
  · intro hi
    have := hi.count
    simp only [h.count] at this
    omega
  · intro h1
    refine ⟨?_, fun c hc => h.typed c (mem_delIdx hc)⟩
    simp only [h.count]; omega

/-- C13 fails: after `del foo[:]` on three curves, `len(foo)` is 2 although no curve is
left. -/
theorem C13_slice_delete_violated :
    ∃ (m : Multi Nat), MInv m ∧ m.elemClass = m.cls.defaultElem ∧
      m.run [.delSlice ⟨none, none, none⟩, .len] = ({ m with curves := [], nLayer := 2 }, [.unit, .nat 2]) := by
  refine ⟨⟨.ggmax, .ggmax, [⟨.ggmax, 1⟩, ⟨.ggmax, 2⟩, ⟨.ggmax, 3⟩], 3⟩, ⟨rfl, ?_⟩, rfl, by decide⟩
  intro c hc
  simp only [List.mem_cons, List.not_mem_nil, or_false] at hc
  rcases hc with rfl | rfl | rfl <;> rfl

/-- C13 fails for a base-class container of damping curves: a slice of it accepts a
G/Gmax curve, which the container itself rejects. -/
theorem C13_slice_class_violated :
    ∃ (m m' : Multi Nat), MInv m ∧ (m.step (.getSlice ⟨none, none, none⟩)).2 = .sub m' ∧
      (m.step (.append (.obj ⟨.ggmax, 7⟩))).2 = .err .typeError ∧
      (m'.step (.append (.obj ⟨.ggmax, 7⟩))).2 = .unit := by
  refine ⟨⟨.base, .damping, [⟨.damping, 1⟩], 1⟩, ⟨.base, .curve, [⟨.damping, 1⟩], 1⟩, ⟨rfl, ?_⟩,
    by decide, by decide, by decide⟩
  intro c hc
  simp only [List.mem_cons, List.not_mem_nil, or_false] at hc
  subst hc; rfl

/-- A history covered by `C13_history_partial`. -/
example : (Multi.run ⟨.damping, .damping, [⟨.damping, 1⟩, ⟨.damping, 2⟩], 2⟩
    [.append (.obj ⟨.damping, 5⟩), .del (-1), .set 0 (.obj ⟨.damping, 9⟩), .append (.obj ⟨.ggmax, 4⟩), .get 5, .len]).2 =
    [.unit, .unit, .unit, .err .typeError, .err .indexError, .nat (2 : Nat)] := by decide

/-! ## C14 -/

/-- Construction keeps the elements in order and establishes the invariant. -/
theorem C14_construct (cls : PMultiCls) (ec : PCls) (conv : PCls → P → Except PyErr P)
    (l : List (PArg P)) (m : PMulti P) (h : PMulti.mk' cls ec conv l = .ok m) :
    PInv m ∧ m.cls = cls ∧ m.ec = ec ∧
    List.Forall₂ (fun a c => a = .obj c ∨ ∃ x v, a = .dict x ∧ conv ec x = .ok v ∧ c = ⟨ec, v⟩) l m.items := by
  unfold PMulti.mk' at h
  cases hl : l.mapM (convPArg ec conv) with
  | error e => rw [hl] at h; cases h
  | ok cs =>
    rw [hl] at h
    cases h
    have key : ∀ (l : List (PArg P)) (cs : List (PObj P)), l.mapM (convPArg ec conv) = .ok cs →
        List.Forall₂ (fun a c => a = .obj c ∨ ∃ x v, a = .dict x ∧ conv ec x = .ok v ∧ c = ⟨ec, v⟩) l cs ∧
        ∀ c ∈ cs, c.cls = ec := by
      intro l
      induction l with
      | nil => intro cs h; cases h; exact ⟨.nil, by simp⟩
      | cons a l ih =>
        intro cs h
        rw [List.mapM_cons] at h
        cases ha : convPArg ec conv a with
        | error e => rw [ha] at h; cases h
        | ok c =>
          cases hr : l.mapM (convPArg ec conv) with
          | error e => rw [ha, hr] at h; cases h
          | ok cs' =>
            rw [ha, hr] at h
            cases h
            obtain ⟨h1, h2⟩ := ih cs' hr
            cases a with
            | dict x =>
              simp only [convPArg] at ha
              cases hc : conv ec x with
              | error e => rw [hc] at ha; cases ha
              | ok v =>
                rw [hc] at ha
                cases ha
                refine ⟨.cons (.inr ⟨x, v, rfl, hc, rfl⟩) h1, ?_⟩
                intro c hc
                rcases List.mem_cons.1 hc with rfl | hc
                · rfl
                · exact h2 c hc
            | obj x =>
              simp only [convPArg] at ha
              split_ifs at ha with hi
              cases ha
              refine ⟨.cons (.inl rfl) h1, ?_⟩
              intro c hc
              rcases List.mem_cons.1 hc with rfl | hc
              · exact hi
              · exact h2 c hc
    obtain ⟨h1, h2⟩ := key l cs hl
    exact ⟨⟨rfl, h2⟩, rfl, rfl, h1⟩

/-- The element class belonging to a subclass container. -/
def Spec.pcls : PMultiCls → PCls
  | .hh => .hh
  | .mkz => .mkz
  | .base => .foreign

/-- C14 for the two subclasses and histories without slice deletion, slice assignment or
assignment of a wrongly typed element.  Missing from the full property: those three
(`C14_set_violated`, `C14_slice_delete_violated`, `C14_slice_assign_violated`) and slices
of base-class containers (`C14_base_slice_violated`). -/
theorem C14_history_partial (ops : List (PLOp P)) : ∀ (m : PMulti P), m.cls ≠ .base → m.ec = pcls m.cls → PInv m →
    (∀ op ∈ ops, safeP m.ec op) →
    (m.run ops).1.items = (plistRun m.cls m.ec m.items ops).1 ∧
    (m.run ops).2 = (plistRun m.cls m.ec m.items ops).2 ∧ PInv (m.run ops).1 := by
  have step : ∀ (m : PMulti P) (op : PLOp P), m.cls ≠ .base → m.ec = pcls m.cls → PInv m → safeP m.ec op →
      (m.step op).1.items = (plistStep m.cls m.ec m.items op).1 ∧
      (m.step op).2 = (plistStep m.cls m.ec m.items op).2 ∧
      PInv (m.step op).1 ∧ (m.step op).1.cls = m.cls ∧ (m.step op).1.ec = m.ec := by
    intro m op hb hec h hop
    obtain ⟨cls, ec, l, n⟩ := m
    obtain ⟨hc, ht⟩ := h
    simp only at hb hec hc ht hop
    subst hc
    cases op with
    | get i =>
      simp only [PMulti.step, plistStep, pyIndex_pos]
      cases hp : pos l.length i with
      | none => exact ⟨rfl, rfl, ⟨rfl, ht⟩, rfl, rfl⟩
      | some k =>
        have := pos_lt hp
        simp only [Option.bind_some, List.getElem?_eq_getElem this]
        exact ⟨trivial, trivial, ⟨rfl, ht⟩, trivial, trivial⟩
    | getSlice s =>
      simp only [PMulti.step, plistStep]
      cases hs : sliceIdx l.length s with
      | error e => exact ⟨rfl, rfl, ⟨rfl, ht⟩, rfl, rfl⟩
      | ok idx =>
        have hm := mapM_pobj ec (fun _ _ => .error .other) (getIdx l idx)
          (fun c hc => ht c (mem_getIdx hc))
        cases cls with
        | base => exact absurd rfl hb
        | hh =>
          have : ec = .hh := hec
          subst this
          simp only [PMulti.mk', hm, Except.map]
          exact ⟨trivial, trivial, ⟨rfl, ht⟩, trivial, trivial⟩
        | mkz =>
          have : ec = .mkz := hec
          subst this
          simp only [PMulti.mk', hm, Except.map]
          exact ⟨trivial, trivial, ⟨rfl, ht⟩, trivial, trivial⟩
    | getBad => exact ⟨rfl, rfl, ⟨rfl, ht⟩, rfl, rfl⟩
    | set i c =>
      have hc : c.cls = ec := hop
      simp only [PMulti.step, plistStep, hc, if_true, pyIndex_pos]
      cases hp : pos l.length i with
      | none => exact ⟨rfl, rfl, ⟨rfl, ht⟩, rfl, rfl⟩
      | some k =>
        refine ⟨set_eq_take_drop l k c (pos_lt hp), rfl, ⟨by simp, ?_⟩, rfl, rfl⟩
        intro d hd
        rcases List.mem_or_eq_of_mem_set hd with h | rfl
        · exact ht d h
        · exact hc
    | setRange a b xs => exact absurd hop (by simp [safeP])
    | del i =>
      simp only [PMulti.step, plistStep, pyIndex_pos]
      cases hp : pos l.length i with
      | none => exact ⟨rfl, rfl, ⟨rfl, ht⟩, rfl, rfl⟩
      | some k =>
        have hk := pos_lt hp
        refine ⟨List.eraseIdx_eq_take_drop_succ l k, rfl, ⟨?_, ?_⟩, rfl, rfl⟩
        · simp only [List.length_eraseIdx, hk, if_true]; omega
        · intro d hd; exact ht d (List.mem_of_mem_eraseIdx hd)
    | delSlice s => exact absurd hop (by simp [safeP])
    | len =>
      simp only [PMulti.step, plistStep]
      rw [if_neg (by omega)]
      exact ⟨rfl, by simp, ⟨rfl, ht⟩, rfl, rfl⟩
    | contains x => exact ⟨rfl, rfl, ⟨rfl, ht⟩, rfl, rfl⟩
  induction ops with
  | nil => intro m _ _ h _; exact ⟨rfl, rfl, h⟩
  | cons op ops ih =>
    intro m hb hcls h hops
    obtain ⟨h1, h2, h3, h4, h5⟩ := step m op hb hcls h (hops op (by simp))
    obtain ⟨g1, g2, g3⟩ := ih (m.step op).1 (by rw [h4]; exact hb) (by rw [h4, h5, hcls]) h3
      (fun o ho => by rw [h5]; exact hops o (by simp [ho]))
    rw [h4, h5, h1] at g1 g2
    refine ⟨?_, ?_, g3⟩
    · simp only [PMulti.run, plistRun]; exact g1
    · simp only [PMulti.run, plistRun, h2, g2]

/-- C14 fails: any object can be assigned into an HH container. -/
theorem C14_set_violated :
    ∃ (m : PMulti Nat), PInv m ∧ m.ec = pcls m.cls ∧ (m.step (.set 0 ⟨.foreign, 5⟩)).2 = .unit ∧
      ¬ PInv (m.step (.set 0 ⟨.foreign, 5⟩)).1 := by
  refine ⟨⟨.hh, .hh, [⟨.hh, 1⟩], 1⟩, ⟨rfl, by simp⟩, rfl, by decide, ?_⟩
  intro h
  have := h.typed ⟨.foreign, 5⟩ (by decide)
  cases this

/-- C14 fails: slice deletion leaves a wrong layer count. -/
theorem C14_slice_delete_violated :
    ∃ (m : PMulti Nat), PInv m ∧ m.ec = pcls m.cls ∧
      (m.run [.delSlice ⟨none, none, none⟩, .len]).2 = [.unit, .nat 1] ∧
      (m.run [.delSlice ⟨none, none, none⟩, .len]).1.items = [] := by
  exact ⟨⟨.hh, .hh, [⟨.hh, 1⟩, ⟨.hh, 2⟩], 2⟩, ⟨rfl, by simp⟩, rfl, by decide, by decide⟩

/-- C14 fails: slice assignment changes the number of layers but not the count. -/
theorem C14_slice_assign_violated :
    ∃ (m : PMulti Nat), PInv m ∧ m.ec = pcls m.cls ∧
      (m.run [.setRange 0 1 [⟨.hh, 7⟩, ⟨.hh, 8⟩], .len]).2 = [.unit, .nat 1] ∧
      (m.run [.setRange 0 1 [⟨.hh, 7⟩, ⟨.hh, 8⟩], .len]).1.items = [⟨.hh, 7⟩, ⟨.hh, 8⟩] := by
  exact ⟨⟨.hh, .hh, [⟨.hh, 1⟩], 1⟩, ⟨rfl, by simp⟩, rfl, by decide, by decide⟩

/-- C14 fails: slicing a base-class container always raises TypeError. -/
theorem C14_base_slice_violated (m : PMulti P) (hb : m.cls = .base) (s : Slice) (hs : s.step ≠ some 0) :
    (m.step (.getSlice s)).2 = .err .typeError := by
  simp only [PMulti.step, hb]
  unfold sliceIdx
  simp only
  have : s.step.getD 1 ≠ 0 := by
    cases h : s.step with
    | none => simp
    | some x => rw [h] at hs; simpa using hs
  rw [if_neg this]
  split_ifs <;> rfl

example : (PMulti.run ⟨.mkz, .mkz, [⟨.mkz, 1⟩, ⟨.mkz, 2⟩], 2⟩ [.get (-2), .del 0, .len, .get 1]).2 =
    [.elem ⟨.mkz, (1 : Nat)⟩, .unit, .nat 1, .err .indexError] := by decide

/-! ## C15 -/

variable {V : Type}

theorem put_keys (d : Dict V) (k : String) (v : V) :
    (d.put k v).map Prod.fst = if k ∈ d.map Prod.fst then d.map Prod.fst else d.map Prod.fst ++ [k] := by
  unfold Dict.put
  split_ifs with h
  · rw [List.map_map]
    apply List.map_congr_left
    intro p _
    by_cases hp : p.1 = k <;> simp [hp]
  · simp

theorem foldl_put_keys (kv d : Dict V) (hd : (d.map Prod.fst).Nodup) :
    ((kv.foldl (fun acc q => acc.put q.1 q.2) d).map Prod.fst).Nodup ∧
    ∀ k, k ∈ (kv.foldl (fun acc q => acc.put q.1 q.2) d).map Prod.fst ↔ k ∈ d.map Prod.fst ∨ k ∈ kv.map Prod.fst := by
  induction kv generalizing d with
  | nil => exact ⟨hd, by simp⟩
  | cons q kv ih =>
    have hnd : ((d.put q.1 q.2).map Prod.fst).Nodup := by
      rw [put_keys]
      split_ifs with h
      · exact hd
      · rw [List.nodup_append]
        refine ⟨hd, by simp, ?_⟩
        intro a ha b hb hab
        simp only [List.mem_singleton] at hb
        rw [hab, hb] at ha; exact h ha
    obtain ⟨h1, h2⟩ := ih (d.put q.1 q.2) hnd
    refine ⟨h1, ?_⟩
    intro k
    rw [List.foldl_cons, h2, put_keys]
    split_ifs with h
    · simp only [List.map_cons, List.mem_cons]
      constructor
      · rintro (h | h) <;> simp [h]
      · rintro (h' | h' | h')
        · exact .inl h'
        · subst h'; exact .inl h
        · exact .inr h'
    · simp only [List.map_cons, List.mem_cons, List.mem_append, List.not_mem_nil, or_false]
      tauto

/-- Construction succeeds exactly for dictionaries with exactly the allowed keys
(KeyError otherwise), and the object then satisfies the invariant. -/
theorem C15_construct (allow : List String) (d : Dict V) :
    ((∀ k, k ∈ d.map Prod.fst ↔ k ∈ allow) →
      ∃ p, Param.mk' allow d = .ok p ∧ KInv p ∧ p.allow = allow) ∧
    (¬ (∀ k, k ∈ d.map Prod.fst ↔ k ∈ allow) → Param.mk' allow d = .error .keyError) := by
  have hsame : sameKeys d allow = true ↔ ∀ k, k ∈ d.map Prod.fst ↔ k ∈ allow := by
    unfold sameKeys
    simp only [Bool.and_eq_true, List.all_eq_true, decide_eq_true_eq]
    constructor
    · rintro ⟨h1, h2⟩ k
      refine ⟨fun h => ?_, h2 k⟩
      obtain ⟨p, hp, rfl⟩ := List.mem_map.1 h
      exact h1 p hp
    · intro h
      exact ⟨fun p hp => (h p.1).1 (List.mem_map_of_mem hp), fun k hk => (h k).2 hk⟩
  constructor
  · intro h
    obtain ⟨h1, h2⟩ := foldl_put_keys d [] (by simp)
    refine ⟨_, by rw [Param.mk', if_pos (hsame.2 h)], ⟨h1, ?_⟩, rfl⟩
    intro k
    rw [h2]; simpa using h k
  · intro h
    rw [Param.mk', if_neg (by rw [hsame]; exact h)]

/-- Values are taken over unchanged by construction (distinct keys). -/
theorem C15_construct_values (allow : List String) (d : Dict V) (hn : (d.map Prod.fst).Nodup) (p : Param V)
    (h : Param.mk' allow d = .ok p) : p.data = d := by
  unfold Param.mk' at h
  split_ifs at h
  cases h
  simp only
  have : ∀ (pre d : Dict V), ((pre ++ d).map Prod.fst).Nodup →
      d.foldl (fun acc q => acc.put q.1 q.2) pre = pre ++ d := by
    intro pre d
    induction d generalizing pre with
    | nil => intro _; simp
    | cons q d ih =>
      intro hn
      rw [List.foldl_cons]
      have hq : q.1 ∉ pre.map Prod.fst := by
        rw [List.map_append, List.nodup_append] at hn
        intro hq
        exact hn.2.2 q.1 hq q.1 (by simp) rfl
      have : pre.put q.1 q.2 = pre ++ [q] := by
        unfold Dict.put; rw [if_neg hq]
      rw [this, ih]
      · simp
      · simpa using hn
  simpa using this [] d (by simpa using hn)

theorem setItem_inv (p : Param V) (h : KInv p) (k : String) (v : V) :
    KInv (p.setItem k v).1 ∧ (p.setItem k v).1.allow = p.allow := by
  unfold Param.setItem
  split_ifs with hk
  · have hk' := (h.keys k).2 hk
    refine ⟨⟨?_, ?_⟩, rfl⟩
    · simp only [put_keys, hk', if_true]; exact h.nodup
    · intro j
      simp only [put_keys, hk', if_true]; exact h.keys j
  · exact ⟨h, rfl⟩

theorem update_inv (kv : Dict V) (p : Param V) (h : KInv p) :
    KInv (p.update kv).1 ∧ (p.update kv).1.allow = p.allow := by
  induction kv generalizing p with
  | nil => exact ⟨h, rfl⟩
  | cons q kv ih =>
    obtain ⟨k, v⟩ := q
    rw [Param.update]
    have hs := setItem_inv p h k v
    cases hr : p.setItem k v with
    | mk p' r =>
      rw [hr] at hs
      cases r with
      | ok u => simp only; rw [← hs.2]; exact ih p' hs.1
      | error e => exact hs

/-- Is the operation the in-place merge operator? -/
def Spec.isIor : DOp V → Prop
  | .ior _ => True
  | _ => False

/-- C15 for every history without the in-place merge operator `|=`: the object keeps
exactly its allowable keys.  Missing from the full property: `|=`, which bypasses the
check (`C15_ior_violated`). -/
theorem C15_history_partial (ops : List (DOp V)) : ∀ (p : Param V), KInv p → (∀ op ∈ ops, ¬ isIor op) →
    KInv (p.run ops).1 ∧ (p.run ops).1.allow = p.allow := by
  have step : ∀ (p : Param V) (op : DOp V), KInv p → ¬ isIor op →
      KInv (p.step op).1 ∧ (p.step op).1.allow = p.allow := by
    intro p op h hop
    cases op with
    | set k v =>
      have hs := setItem_inv p h k v
      rw [Param.step]
      cases hr : p.setItem k v with
      | mk p' r => rw [hr] at hs; cases r <;> exact hs
    | del k => exact ⟨h, rfl⟩
    | get k => rw [Param.step]; split <;> exact ⟨h, rfl⟩
    | update kv =>
      have hs := update_inv kv p h
      rw [Param.step]
      cases hr : p.update kv with
      | mk p' r => rw [hr] at hs; cases r <;> exact hs
    | setdefault k v =>
      rw [Param.step]
      split
      · exact ⟨h, rfl⟩
      · have hs := setItem_inv p h k v
        cases hr : p.setItem k v with
        | mk p' r => rw [hr] at hs; cases r <;> exact hs
    | pop k => rw [Param.step]; split <;> exact ⟨h, rfl⟩
    | popDefault k v => rw [Param.step]; split <;> exact ⟨h, rfl⟩
    | popitem => rw [Param.step]; split_ifs <;> exact ⟨h, rfl⟩
    | clear => rw [Param.step]; split_ifs <;> exact ⟨h, rfl⟩
    | ior kv => exact absurd trivial hop
    | orNew kv => rw [Param.step]; split <;> exact ⟨h, rfl⟩
    | copy => exact ⟨h, rfl⟩
  induction ops with
  | nil => intro p h _; exact ⟨h, rfl⟩
  | cons op ops ih =>
    intro p h hops
    have hs := step p op h (hops op (by simp))
    have := ih (p.step op).1 hs.1 (fun o ho => hops o (by simp [ho]))
    refine ⟨this.1, ?_⟩
    rw [Param.run]; simp only; rw [this.2, hs.2]

/-- Foreign keys are rejected with KeyError and deletions with ValueError; both leave
the object as it was. -/
theorem C15_rejections (p : Param V) (h : KInv p) (hne : p.allow ≠ []) :
    (∀ k v, k ∉ p.allow → p.step (.set k v) = (p, .err .keyError) ∧
      p.step (.setdefault k v) = (p, .err .keyError) ∧ p.step (.pop k) = (p, .err .keyError)) ∧
    (∀ k, p.step (.del k) = (p, .err .valueError)) ∧
    (∀ k, k ∈ p.allow → p.step (.pop k) = (p, .err .valueError)) ∧
    p.step .popitem = (p, .err .valueError) ∧ p.step .clear = (p, .err .valueError) := by
  have hlook : ∀ k, k ∉ p.allow → p.data.look k = .error .keyError := by
    intro k hk
    unfold Dict.look
    have : p.data.find? (fun q => decide (q.1 = k)) = none := by
      rw [List.find?_eq_none]
      intro q hq hqk
      simp only [decide_eq_true_eq] at hqk
      exact hk ((h.keys k).1 (by rw [← hqk]; exact List.mem_map_of_mem hq))
    rw [this]
  have hdata : p.data ≠ [] := by
    intro hd
    obtain ⟨k, hk⟩ := List.exists_mem_of_ne_nil _ hne
    have := (h.keys k).2 hk
    rw [hd] at this; simp at this
  refine ⟨?_, fun _ => rfl, ?_, ?_, ?_⟩
  · intro k v hk
    refine ⟨?_, ?_, ?_⟩
    · simp [Param.step, Param.setItem, hk]
    · simp [Param.step, Param.setItem, hk, hlook k hk]
    · simp [Param.step, hlook k hk]
  · intro k hk
    have hk' := (h.keys k).2 hk
    rw [Param.step]
    cases hl : p.data.look k with
    | ok v => rfl
    | error e =>
      exfalso
      obtain ⟨q, hq, rfl⟩ := List.mem_map.1 hk'
      unfold Dict.look at hl
      cases hf : p.data.find? (fun r => decide (r.1 = q.1)) with
      | none =>
        rw [List.find?_eq_none] at hf
        exact hf q hq (by simp)
      | some r => rw [hf] at hl; cases hl
  · rw [Param.step, if_neg hdata]
  · rw [Param.step, if_neg hdata]

/-- Reading back an assigned key returns the assigned value; other keys are untouched. -/
theorem C15_set_get (p : Param V) (h : KInv p) (k : String) (v : V) (hk : k ∈ p.allow) :
    ((p.step (.set k v)).1.step (.get k)).2 = .val v ∧
    ∀ j, j ≠ k → ((p.step (.set k v)).1.step (.get j)).2 = (p.step (.get j)).2 := by
  have hk' := (h.keys k).2 hk
  have hstep : (p.step (.set k v)).1 = { p with data := p.data.map fun q => if q.1 = k then (k, v) else q } := by
    simp only [Param.step, Param.setItem, hk, if_true, Dict.put, hk']
  have hfind : ∀ (d : Dict V) (j : String), (d.map fun q => if q.1 = k then (k, v) else q).find?
      (fun q => decide (q.1 = j)) = (d.find? (fun q => decide (q.1 = j))).map
        (fun q => if q.1 = k then (k, v) else q) := by
    intro d j
    induction d with
    | nil => rfl
    | cons q d ih =>
      rw [List.map_cons, List.find?_cons, List.find?_cons]
      by_cases hq : q.1 = k
      · simp only [hq, if_true]
        by_cases hj : k = j
        · simp [hj, hq]
        · simp only [hj, decide_false]; exact ih
      · simp only [hq, if_false]
        by_cases hj : q.1 = j
        · simp only [hj, decide_true, Option.map_some]
          rw [if_neg (by rw [← hj]; exact hq)]
        · simp only [hj, decide_false]; exact ih
  rw [hstep]
  constructor
  · simp only [Param.step, Dict.look, hfind]
    cases hf : p.data.find? (fun q => decide (q.1 = k)) with
    | none =>
      rw [List.find?_eq_none] at hf
      obtain ⟨q, hq, rfl⟩ := List.mem_map.1 hk'
      exact absurd (by simp) (hf q hq)
    | some q =>
      have := List.find?_some hf
      simp only [decide_eq_true_eq] at this
      simp [this]
  · intro j hj
    simp only [Param.step, Dict.look, hfind]
    cases hf : p.data.find? (fun q => decide (q.1 = j)) with
    | none => rfl
    | some q =>
      have := List.find?_some hf
      simp only [decide_eq_true_eq] at this
      have hqk : q.1 ≠ k := by rw [this]; exact hj
      simp [hqk]

/-- C15 fails for `|=`: a foreign key enters the object without an error. -/
theorem C15_ior_violated :
    ∃ (p : Param Nat), KInv p ∧ p.allow = mkzKeys ∧ (p.step (.ior [("foo", 1)])).2 = .unit ∧
      ¬ KInv (p.step (.ior [("foo", 1)])).1 := by
  refine ⟨⟨mkzKeys, [("gamma_ref", 1), ("s", 2), ("beta", 3), ("Gmax", 4)]⟩, ⟨by decide, ?_⟩, rfl, rfl, ?_⟩
  · intro k; simp [mkzKeys]
  · intro h
    have := (h.keys "foo").1 (by decide)
    revert this; decide

/-- C15 fails for `update`: the keys before the foreign one are already changed when the
KeyError is raised. -/
theorem C15_update_violated :
    ∃ (p : Param Nat), KInv p ∧ (p.step (.update [("s", 7), ("foo", 1)])).2 = .err .keyError ∧
      (p.step (.update [("s", 7), ("foo", 1)])).1 ≠ p := by
  refine ⟨⟨mkzKeys, [("gamma_ref", 1), ("s", 2), ("beta", 3), ("Gmax", 4)]⟩, ⟨by decide, ?_⟩, by decide, by decide⟩
  intro k; simp [mkzKeys]

example : (Param.run ⟨mkzKeys, [("gamma_ref", 1), ("s", 2), ("beta", 3), ("Gmax", 4)]⟩
    [.set "s" 9, .get "s", .set "mu" 3, .pop "s", .clear]).2 =
    [.unit, .val (9 : Nat), .err .keyError, .err .valueError, .err .valueError] := by decide

end Verif
