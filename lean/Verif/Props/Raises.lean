import Verif.Props.ProfileExact
import Verif.Props.MotionExact
import Verif.Props.Containers
import Verif.Props.EquivLinear
import Verif.Model.SimInit
import Verif.Model.Batch
import Verif.Model.MotionMethods

/-!
C158: which exceptions are raised.  A docstring of the package that has a section "Raises" names ValueError, TypeError or KeyError
only.  `Spec.Only S r` says that the result `r` is a value or one of the exceptions in `S`.
-/

set_option linter.unusedSectionVars false
set_option linter.unusedVariables false

namespace Verif

/-- No exception other than those in `S`. -/
def Spec.Only {α : Type*} (S : List PyErr) (r : Except PyErr α) : Prop := ∀ e, r = .error e → e ∈ S

open Spec (Only Valid Valid5)

theorem only_ok {α : Type*} (S : List PyErr) (a : α) : Only S (.ok a : Except PyErr α) := fun _ h => by cases h

theorem only_err {α : Type*} {S : List PyErr} {e : PyErr} (h : e ∈ S) : Only S (.error e : Except PyErr α) :=
  fun _ h' => by cases h'; exact h

theorem only_bind {α β : Type} {S : List PyErr} {x : Except PyErr α} {f : α → Except PyErr β} (hx : Only S x)
    (hf : ∀ a, x = .ok a → Only S (f a)) : Only S (x >>= f) := by
  cases x with
  | error e => exact only_err (hx e rfl)
  | ok a => exact hf a rfl

theorem only_mono {α : Type*} {S T : List PyErr} {r : Except PyErr α} (h : Only S r) (hs : ∀ e ∈ S, e ∈ T) : Only T r :=
  fun e he => hs e (h e he)

theorem only_mapM {α β : Type} {S : List PyErr} {f : α → Except PyErr β} : ∀ {l : List α}, (∀ a ∈ l, Only S (f a)) →
    Only S (l.mapM f)
  | [], _ => only_ok _ _
  | a :: l, h => by
    rw [List.mapM_cons]
    refine only_bind (h a (by simp)) fun b _ => only_bind (only_mapM fun x hx => h x (by simp [hx])) fun bs _ => only_ok _ _

/-! ## Profiles -/

section
variable {K : Type} [Field K] [LinearOrder K] [IsStrictOrderedRing K] [FloorRing K]

theorem only_thkVs (thk vs : List K) (h : thk ≠ []) : Only [.valueError] (checkThkVs thk vs) := by
  unfold checkThkVs
  split
  · exact only_err (by simp)
  · rw [List.getLast?_eq_getLast_of_ne_nil h]
    dsimp only
    split_ifs
    · exact only_err (by simp)
    · exact only_err (by simp)
    · exact only_ok _ _

/-- A profile argument: anything that is not an array raises TypeError, every other invalid argument with at least one row raises
ValueError, as documented. -/
theorem C158_profile_arg_partial (x : VsArg K) (hx : ∀ c, x = .arr c → c.thk ≠ []) (e : PyErr) (h : checkVsArg x = .error e) :
    (x = .notArray ∧ e = .typeError) ∨ (x ≠ .notArray ∧ e = .valueError) := by
  cases x with
  | notArray => cases h; exact .inl ⟨rfl, rfl⟩
  | nonNumeric => cases h; exact .inr ⟨nofun, rfl⟩
  | nonFiniteArr => cases h; exact .inr ⟨nofun, rfl⟩
  | not2D => cases h; exact .inr ⟨nofun, rfl⟩
  | otherCols => cases h; exact .inr ⟨nofun, rfl⟩
  | arr c =>
    refine .inr ⟨nofun, ?_⟩
    have hne := hx c rfl
    cases c with
    | two rows => simpa using only_thkVs _ _ hne e h
    | five rows =>
      have hr : rows ≠ [] := by intro hc; subst hc; exact hne rfl
      have : Only [.valueError] (checkVsFormat (.five rows)) := by
        unfold checkVsFormat
        refine only_bind (only_thkVs _ _ hne) fun _ _ => ?_
        split_ifs
        · exact only_err (by simp)
        · exact only_err (by simp)
        · exact only_err (by simp)
        · rw [List.getLast?_eq_getLast_of_ne_nil hr]
          dsimp only
          split_ifs
          · exact only_err (by simp)
          · exact only_ok _ _
      simpa using this e h

/-- C158 fails for arrays without rows: IndexError, which is not documented. -/
theorem C158_profile_empty_violated (c : Cell K) (hc : c.thk = []) :
    checkVsArg (.arr c) = .error .indexError ∧ ∀ (σ : Store K) (a : Nat) (du : DampUnit) (de : DensUnit) (half : Bool) (f : Int),
      σ[a]? = some c → mkProfile σ a du de half f = .error .indexError := by
  have h : checkVsFormat c = .error .indexError := by
    cases c with
    | two rows => simp only [Cell.thk, List.map_eq_nil_iff] at hc; subst hc; rfl
    | five rows => simp only [Cell.thk, List.map_eq_nil_iff] at hc; subst hc; rfl
  refine ⟨h, fun σ a du de half f ha => ?_⟩
  unfold mkProfile
  simp only [ha, h, bind, Except.bind]

/-- The constructor of profiles, for an array with at least one row: ValueError if the array is not a profile or a unit is
unknown; otherwise it succeeds. -/
theorem C158_profile (σ : Store K) (a : Nat) (c : Cell K) (ha : σ[a]? = some c) (hc : c.thk ≠ []) (du : DampUnit) (de : DensUnit)
    (half : Bool) (f : Int) :
    (checkVsFormat c ≠ .ok () ∨ du = .bad ∨ de = .bad → mkProfile σ a du de half f = .error .valueError) ∧
    (checkVsFormat c = .ok () → du ≠ .bad → de ≠ .bad → ∃ r, mkProfile σ a du de half f = .ok r) := by
  constructor
  · intro h
    unfold mkProfile
    simp only [ha]
    cases hk : checkVsFormat c with
    | error e =>
      have := C158_profile_arg_partial (.arr c) (by intro c' h; cases h; exact hc) e hk
      rcases this with ⟨h', _⟩ | ⟨_, rfl⟩
      · cases h'
      · rfl
    | ok u =>
      simp only [bind, Except.bind]
      rcases h with h | h | h
      · exact absurd hk h
      · rw [if_pos h]
      · by_cases h1 : du = .bad
        · rw [if_pos h1]
        · rw [if_neg h1, if_pos h]
  · intro hk h1 h2
    unfold mkProfile
    simp only [ha, hk, bind, Except.bind]
    rw [if_neg h1, if_neg h2]
    have half_ok : ∀ rows : List (Row K), Valid (rows.map Row.tv) → (rows.map Row.thk).getLast? ≠ some 0 →
        Valid ((rows ++ (rows.getLast?.map halfspaceOf).toList).map Row.tv) := by
      intro rows hv hl
      have hne : rows ≠ [] := fun hc => hv.nonempty (by rw [hc]; rfl)
      obtain ⟨r, hr⟩ : ∃ r, rows.getLast? = some r := ⟨_, List.getLast?_eq_getLast_of_ne_nil hne⟩
      have hrm := List.mem_of_getLast? hr
      have hr0 : 0 < r.thk := by
        have h3 := hv.thk_nonneg r.tv (List.mem_map.2 ⟨r, hrm, rfl⟩)
        rw [List.getLast?_map, hr] at hl
        exact lt_of_le_of_ne h3 fun h0 => hl (congrArg some (Eq.symm h0))
      simp only [hr, Option.map_some, Option.toList_some, List.map_append, List.map_cons, List.map_nil]
      constructor
      · simp
      · intro q hq
        rw [List.dropLast_concat] at hq
        obtain ⟨s, hs, rfl⟩ := List.mem_map.1 hq
        rw [← List.dropLast_append_getLast hne] at hs
        rcases List.mem_append.1 hs with h4 | h4
        · refine hv.thk_pos s.tv ?_
          rw [← List.map_dropLast]
          exact List.mem_map.2 ⟨s, h4, rfl⟩
        · rw [List.getLast?_eq_getLast_of_ne_nil hne, Option.some.injEq] at hr
          simp only [List.mem_singleton] at h4
          rw [h4, hr]; exact hr0
      · intro q hq
        rcases List.mem_append.1 hq with h4 | h4
        · exact hv.thk_nonneg q h4
        · simp only [List.mem_singleton] at h4; rw [h4]; exact le_refl _
      · intro q hq
        rcases List.mem_append.1 hq with h4 | h4
        · exact hv.vs_pos q h4
        · simp only [List.mem_singleton] at h4; rw [h4]
          exact hv.vs_pos r.tv (List.mem_map.2 ⟨r, hrm, rfl⟩)
    cases c with
    | two rows =>
      have hv : Valid rows := (checkVsFormat_two_ok rows).1 hk
      have htv := expandTwo_map_tv rows f hv.nonempty
      dsimp only
      split_ifs with h3
      · rw [finishObj_ok (half_ok _ (by rw [htv]; exact hv) (by rw [expandTwo_thk rows f hv.nonempty]; exact h3.2))]
        exact ⟨_, rfl⟩
      · rw [finishObj_ok (by rw [htv]; exact hv)]
        exact ⟨_, rfl⟩
    | five rows =>
      have hv5 : Valid5 rows := (checkVsFormat_five_ok rows).1 hk
      have htv : (rows.map (convertRow du de)).map Row.tv = rows.map Row.tv := by
        rw [List.map_map]; rfl
      have hv : Valid ((rows.map (convertRow du de)).map Row.tv) := by rw [htv]; exact hv5.valid
      dsimp only
      split_ifs with h3
      · rw [finishObj_ok (half_ok _ hv h3.2)]
        exact ⟨_, rfl⟩
      · rw [finishObj_ok hv]
        exact ⟨_, rfl⟩

end

/-! ## Curves -/

section
variable {K : Type} [Field K] [LinearOrder K] [IsStrictOrderedRing K]

theorem only_checkTwo (m : CMat K) (nn : Bool) (h : m.cols.length = 2) : Only [.valueError] (checkTwoCol m nn) := by
  unfold checkTwoCol
  rw [if_neg (by simp [h])]
  split_ifs
  · exact only_err (by simp)
  · exact only_ok _ _

/-- Curve objects raise ValueError only. -/
theorem C158_curve (σ : CStore K) (a : Nat) (ha : a < σ.length) (kind : CurveKind) (su : Unit1)
    (interp : Option (List (K × K) → List (K × K))) (chk : Bool) :
    Only [.valueError] (mkCurve σ a kind su interp chk).1 := by
  have hfin : ∀ (τ : CStore K) (w : Where K), Only [.valueError] (finishCurve τ w chk kind).1 := by
    intro τ w
    have hrange : ∀ (τ : CStore K) (w : Where K) (hi : K), Only [.valueError] (rangeCheck τ w hi chk).1 := by
      intro τ w hi
      unfold rangeCheck
      split
      · exact only_err (by simp)
      · exact only_ok _ _
    cases kind with
    | plain => exact only_ok _ _
    | ggmax => exact hrange _ _ _
    | damping u => cases u with
      | one => exact hrange _ _ _
      | pct => exact hrange _ _ _
      | bad => exact only_err (by simp)
    | stress u => cases u with
      | bad => exact only_err (by simp)
      | _ => exact only_ok _ _
  have hbase : Only [.valueError] (mkBase σ a su interp chk).1 := by
    unfold mkBase
    rw [List.getElem?_eq_getElem ha]
    dsimp only
    split
    · exact only_err (by simp)
    · cases su with
      | bad => exact only_err (by simp)
      | _ => exact only_ok _ _
  unfold mkCurve
  cases hb : mkBase σ a su interp chk with
  | mk r τ =>
    rw [hb] at hbase
    cases r with
    | error e => exact hbase
    | ok w => exact hfin τ w

/-- Matrices of curves: splitting and merging raise ValueError only; the format checks of the blocks, which could raise TypeError,
never do so. -/
theorem C158_matrix (m g x : CMat K) (nn : Bool) :
    Only [.valueError] (extractCurves m nn) ∧ Only [.valueError] (mergeMats g x) := by
  constructor
  · unfold extractCurves
    split
    · exact only_err (by simp)
    · rename_i h4
      have loop : ∀ k j : Nat, m.cols.length = 4 * (j + k) → Only [.valueError] (extractLoop m nn j k) := by
        intro k
        induction k with
        | zero => intro j _; exact only_ok _ _
        | succ k ih =>
          intro j hj
          have hs : ∀ a, a + 2 ≤ m.cols.length → (m.slice a (a + 2)).cols.length = 2 := by
            intro a ha
            simp only [CMat.slice, List.length_drop, List.length_take]; omega
          unfold extractLoop
          refine only_bind (only_checkTwo _ _ (hs _ (by omega))) fun _ _ =>
            only_bind (only_checkTwo _ _ (hs _ (by omega))) fun _ _ =>
            only_bind (ih (j + 1) (by omega)) fun r _ => only_ok _ _
      exact loop _ 0 (by omega)
  · unfold mergeMats
    split_ifs
    · exact only_err (by simp)
    · exact only_err (by simp)
    · exact only_err (by simp)
    · exact only_err (by simp)
    · exact only_ok _ _

/-- Sets of G/Gmax and damping curves: TypeError exactly if (only) the first argument is given and is not a tuple or has elements
of the wrong class; ValueError exactly if none or both arguments are given, or the tuple or the matrix has the wrong size. -/
theorem C158_curve_sets (a : MGDArg) (data : Option Nat) :
    (mgdInit a data = .error .typeError ↔ data = none ∧ (a = .notTuple ∨ a = .wrongTypes)) ∧
    (mgdInit a data = .error .valueError ↔ (a = .none ↔ data = none) ∨ (data = none ∧ a = .badTuple) ∨
      (∃ n m, data = none ∧ a = .pair n m ∧ n ≠ m) ∨ ∃ c, a = .none ∧ data = some c ∧ c % 4 ≠ 0) ∧
    Only [.typeError, .valueError] (mgdInit a data) := by
  cases a <;> cases data <;> simp only [mgdInit] <;> (try split_ifs) <;>
    simp_all [Only]

/-- Containers of curves raise TypeError or what the constructor of the curves raises. -/
theorem C158_containers {P : Type} (cls : MultiCls) (ec : CurveCls) (conv : CurveCls → P → Except PyErr P) (l : List (CurveArg P))
    (S : List PyErr) (hc : ∀ x, Only S (conv ec x)) : Only (.typeError :: S) (Multi.mk' cls ec conv l) := by
  have h : Only (.typeError :: S) (l.mapM (convArg ec conv)) := by
    refine only_mapM fun a _ => ?_
    cases a with
    | arr x =>
      simp only [convArg]
      intro e he
      cases hx : conv ec x with
      | ok v => rw [hx] at he; cases he
      | error e' => rw [hx] at he; cases he; exact List.mem_cons_of_mem _ (hc x e hx)
    | obj c =>
      simp only [convArg]
      split_ifs
      · exact only_ok _ _
      · exact only_err (by simp)
    | other => exact only_err (by simp)
  intro e he
  unfold Multi.mk' at he
  cases hm : l.mapM (convArg ec conv) with
  | ok v => rw [hm] at he; cases he
  | error e' => rw [hm] at he; cases he; exact h e hm

/-- Parameter objects raise KeyError exactly if the keys are not the documented ones, and nothing else. -/
theorem C158_parameters {V : Type} (allow : List String) (d : Dict V) :
    (Param.mk' allow d = .error .keyError ↔ ¬ ∀ k, k ∈ d.map Prod.fst ↔ k ∈ allow) ∧ Only [.keyError] (Param.mk' allow d) := by
  have hs : sameKeys d allow = true ↔ ∀ k, k ∈ d.map Prod.fst ↔ k ∈ allow := by
    unfold sameKeys
    simp only [Bool.and_eq_true, List.all_eq_true, decide_eq_true_eq]
    constructor
    · rintro ⟨h1, h2⟩ k
      refine ⟨fun h => ?_, h2 k⟩
      obtain ⟨p, hp, rfl⟩ := List.mem_map.1 h
      exact h1 p hp
    · intro h
      exact ⟨fun p hp => (h _).1 (List.mem_map.2 ⟨p, hp, rfl⟩), fun k hk => (h k).2 hk⟩
  unfold Param.mk'
  by_cases h : sameKeys d allow = true
  · rw [if_pos h]
    exact ⟨⟨fun he => (by cases he), fun hn => absurd (hs.1 h) hn⟩, only_ok _ _⟩
  · rw [if_neg h]
    exact ⟨⟨fun _ hn => h (hs.2 hn), fun _ => rfl⟩, only_err (by simp)⟩

/-! ## Simulations -/

theorem only_layerCount (n : Int) (mats : List K) : Only [.valueError] (checkLayerCount n mats) := by
  unfold checkLayerCount
  split
  · exact only_err (by simp)
  · split_ifs
    · exact only_err (by simp)
    · exact only_ok _ _

/-- Simulation objects raise TypeError and ValueError only. -/
theorem C158_simulations {V M P C : Type} (mats : V → List K) (count : C → Int) (profile : Option V) (motion : Option M)
    (b : BoundaryArg) (g xi : ParArg P) (curves : CurvesArg C) :
    Only [.typeError, .valueError] (simInit profile motion b g xi curves) ∧
    Only [.typeError, .valueError] (equivInit (P := P) mats count profile motion curves b) ∧
    Only [.typeError, .valueError] (nonlinInit (C := C) mats profile motion g xi b) := by
  have sim : ∀ (g xi : ParArg P) (curves : CurvesArg C), Only [.typeError, .valueError] (simInit profile motion b g xi curves) := by
    intro g xi curves
    unfold simInit
    cases profile with
    | none => exact only_err (by simp)
    | some v =>
      cases motion with
      | none => exact only_err (by simp)
      | some m =>
        cases b <;> dsimp only
        case other => exact only_err (by simp)
        all_goals
          split_ifs
          · exact only_err (by simp)
          · exact only_err (by simp)
          · exact only_err (by simp)
          · cases curves
            · exact only_ok _ _
            · exact only_ok _ _
            · exact only_err (by simp)
  have cnt : ∀ (n : Int) (l : List K), Only [.typeError, .valueError] (checkLayerCount n l) := fun n l =>
    only_mono (only_layerCount n l) (by simp)
  refine ⟨sim g xi curves, ?_, ?_⟩
  · unfold equivInit
    cases curves with
    | none => exact only_err (by simp)
    | _ =>
      refine only_bind (sim _ _ _) fun s _ => ?_
      dsimp only
      split
      · exact only_bind (cnt _ _) fun _ _ => only_ok _ _
      · exact only_ok _ _
  · unfold nonlinInit
    split
    · exact only_err (by simp)
    · exact only_err (by simp)
    · refine only_bind (sim _ _ _) fun s _ => ?_
      have last : Only [.typeError, .valueError] (match s.xiParam with
          | .multi a => do
            let _ ← checkLayerCount a.nLayer (mats s.profile)
            pure s
          | _ => do
            let _ ← (.ok () : Except PyErr Unit)
            pure s) := by
        split
        · exact only_bind (cnt _ _) fun _ _ => only_ok _ _
        · exact only_ok _ _
      dsimp only
      split
      · exact only_bind (cnt _ _) fun _ _ => last
      · exact last

/-- Batches: ValueError exactly for the empty list, TypeError exactly for something that is not a list, an element that is no
simulation, or elements of different classes. -/
theorem C158_batch (x : Option (List SimKind)) :
    (batchInit x = .error .valueError ↔ x = some []) ∧
    (batchInit x = .error .typeError ↔ x = none ∨ ∃ l, x = some l ∧ l ≠ [] ∧ ¬ ∃ k, k ≠ .notSim ∧ ∀ j ∈ l, j = k) ∧
    Only [.typeError, .valueError] (batchInit x) := by
  cases x with
  | none => exact ⟨by simp [batchInit], by simp [batchInit], only_err (by simp)⟩
  | some l =>
    cases l with
    | nil => exact ⟨by simp [batchInit], by simp [batchInit], only_err (by simp)⟩
    | cons k ks =>
      unfold batchInit
      dsimp only
      by_cases h1 : k = .notSim
      · rw [if_pos h1]
        refine ⟨by simp, ⟨fun _ => .inr ⟨_, rfl, by simp, ?_⟩, fun _ => rfl⟩, only_err (by simp)⟩
        rintro ⟨q, hq, hall⟩
        exact hq ((hall k (by simp)).symm.trans h1)
      · rw [if_neg h1]
        by_cases h2 : (k :: ks).all (fun j => decide (j = k)) = true
        · rw [if_pos h2]
          refine ⟨by simp, ⟨fun h => (by cases h), ?_⟩, only_ok _ _⟩
          rintro (h | ⟨l, hl, _, hn⟩)
          · cases h
          · cases hl
            refine absurd ⟨k, h1, fun j hj => ?_⟩ hn
            exact of_decide_eq_true (List.all_eq_true.1 h2 j hj)
        · rw [if_neg h2]
          refine ⟨by simp, ⟨fun _ => .inr ⟨_, rfl, by simp, ?_⟩, fun _ => rfl⟩, only_err (by simp)⟩
          rintro ⟨q, hq, hall⟩
          refine h2 (List.all_eq_true.2 fun j hj => decide_eq_true ?_)
          exact (hall j hj).trans (hall k (by simp)).symm

/-! ## Motions -/

/-- Reading data: exactly which exception is raised. -/
theorem C158_read (σ : CStore K) (delta : Option K) :
    readTwo σ (.badShape : MData K) delta = .error .typeError ∧
    (∀ col, readTwo σ (.one col) none = .error .valueError) ∧
    (∀ col d, col.length < 2 → readTwo σ (.one col) (some d) = .error .indexError) ∧
    (∀ col, 2 ≤ col.length → readTwo σ (.one col) (some 0) = .error .assertionError) ∧
    (∀ a r, σ[a]? = some [r] → readTwo σ (.two a) delta = .error (if delta = none then .valueError else .indexError)) ∧
    (∀ a, σ[a]? = some [] → readTwo σ (.two a) delta = .error .indexError) := by
  refine ⟨rfl, fun _ => rfl, ?_, ?_, ?_, ?_⟩
  · intro col d h
    match col, h with
    | [], _ => rfl
    | [x], _ => simp [readTwo, linspace]
  · intro col h
    match col, h with
    | x :: y :: col, _ =>
      simp [readTwo, linspace, List.range_succ_eq_map]
  · intro a r h
    simp only [readTwo, h]
    split_ifs <;> rfl
  · intro a h
    simp only [readTwo, h]; rfl

/-- C158 for motions of two or more samples: an unknown unit or type, or a unit that is not one of the type, raises ValueError, as
documented; the only other failure is a division by zero for a velocity or displacement record with repeated times (the code
goes on with infinite numbers).  Missing: shorter records (`C158_motion_short_violated`). -/
theorem C158_motion_partial (σ : CStore K) (a : Nat) (x : Rec K) (ha : σ[a]? = some x) (h2 : 2 ≤ x.length) (unit : MUnit)
    (ty : MType) (delta : Option K) :
    (unit = .bad ∨ ty = .bad ∨ ((unit = .g ∨ unit = .gal) ∧ ty ≠ .accel) →
      (mkMotion σ (.two a) unit ty delta).1 = .error .valueError) ∧
    (unit ≠ .bad → ty ≠ .bad → ¬ ((unit = .g ∨ unit = .gal) ∧ ty ≠ .accel) →
      Only [.nonFinite] (mkMotion σ (.two a) unit ty delta).1 ∧
      (ty = .accel → ∃ m, (mkMotion σ (.two a) unit ty delta).1 = .ok m)) := by
  have hr : ∃ dt, readTwo σ (.two a) delta = .ok (.view a, dt) := by
    match x, h2 with
    | p :: q :: d, _ => unfold readTwo; simp only [ha]; exact ⟨_, rfl⟩
  obtain ⟨dt, hr⟩ := hr
  have hal : a < σ.length := by
    by_contra hn; rw [List.getElem?_eq_none (by omega)] at ha; cases ha
  unfold mkMotion
  rw [hr]
  dsimp only
  constructor
  · intro h
    by_cases h1 : unit = .bad
    · rw [if_pos h1]
    rw [if_neg h1]
    by_cases h3 : ty = .bad
    · rw [if_pos h3]
    rw [if_neg h3]
    rcases h with h | h | h
    · exact absurd h h1
    · exact absurd h h3
    · rw [if_pos h]
  · intro h1 h3 h4
    rw [if_neg h1, if_neg h3, if_neg h4]
    have hlen : 2 ≤ ((toSIinPlace σ (.view a) unit).1.read (toSIinPlace σ (.view a) unit).2).length := by
      unfold toSIinPlace
      split
      · simp only [Where.scale, Where.read, List.getElem?_set_self hal, Option.getD_some, ha, scaleCols]
        simpa using h2
      · simp only [Where.read, ha, Option.getD_some]; exact h2
    generalize (toSIinPlace σ (.view a) unit).1.read (toSIinPlace σ (.view a) unit).2 = y at hlen
    have hint : ∃ p, numInt y = .ok p := by
      match y, hlen with
      | p :: q :: d, _ => exact ⟨_, rfl⟩
    have hdiff : ∀ z : Rec K, z ≠ [] → Only [.nonFinite] (numDiff z) := by
      intro z hz
      unfold numDiff
      dsimp only
      split
      · exact only_err (by simp)
      · unfold colStack
        rw [if_neg]
        · exact only_ok _ _
        · match z, hz with
          | p :: z, _ =>
            simp [diff_length]
    have hdl : ∀ z w : Rec K, z ≠ [] → numDiff z = .ok w → w ≠ [] := by
      intro z w hz h hw
      unfold numDiff at h
      dsimp only at h
      split at h
      · cases h
      · unfold colStack at h
        split at h
        · cases h
        · cases h
          match z, hz with
          | p :: z, _ => simp at hw
    obtain ⟨p, hp⟩ := hint
    have hy : y ≠ [] := by intro hc; rw [hc] at hlen; simp at hlen
    cases ty with
    | bad => exact absurd rfl h3
    | accel =>
      simp only [hp, bind, Except.bind, pure, Except.pure]
      exact ⟨only_ok _ _, fun _ => ⟨_, rfl⟩⟩
    | veloc =>
      refine ⟨?_, fun h => by cases h⟩
      cases hd : numDiff y with
      | error e => simp only [bind, Except.bind]; exact only_err (hdiff y hy e hd)
      | ok w => simp only [hp, bind, Except.bind, pure, Except.pure]; exact only_ok _ _
    | displ =>
      refine ⟨?_, fun h => by cases h⟩
      cases hd : numDiff y with
      | error e => simp only [bind, Except.bind]; exact only_err (hdiff y hy e hd)
      | ok w =>
        cases hd2 : numDiff w with
        | error e => simp only [bind, Except.bind, hd2]; exact only_err (hdiff w (hdl y w hy hd) e hd2)
        | ok w2 => simp only [bind, Except.bind, hd2, pure, Except.pure]; exact only_ok _ _

/-- C158 fails for motions of less than two samples: IndexError (or, for a single row without a time interval, a ValueError about
the interval). -/
theorem C158_motion_short_violated (σ : CStore K) (a : Nat) (x : Rec K) (ha : σ[a]? = some x) (h : x.length < 2) (unit : MUnit)
    (ty : MType) (delta : Option K) :
    (mkMotion σ (.two a) unit ty delta).1 =
      .error (if delta = none ∧ x ≠ [] then .valueError else .indexError) := by
  unfold mkMotion
  match x, h with
  | [], _ => simp only [readTwo, ha]; simp [dtOf, bind, Except.bind]
  | [r], _ =>
    simp only [readTwo, ha]
    by_cases hd : delta = none
    · simp [hd]
    · simp [hd]

/-- Conversion of units: ValueError exactly for units that are not units of acceleration. -/
theorem C158_unit (σ : CStore K) (m : Motion K) (unit : MUnit) :
    (unitConvert σ m unit = .error .valueError ↔ unit ≠ .mpss ∧ unit ≠ .cmpss ∧ unit ≠ .gal ∧ unit ≠ .g) ∧
    Only [.valueError] (unitConvert σ m unit) := by
  cases unit <;> simp [unitConvert, Only]

/-- Truncation of motions: ValueError exactly for a negative extension or limits that are not increasing; ZeroDivisionError, which
is not documented, for a motion without time step. -/
theorem C158_truncate_partial [FloorRing K] (acc norm : Rec K) (dt : K) (npts : Nat) (lim ext : K × K) :
    (truncIdx acc norm dt npts lim false ext = .error .valueError ↔ (ext.1 < 0 ∨ ext.2 < 0) ∨ lim.2 ≤ lim.1) ∧
    (truncIdx acc norm dt npts lim false ext = .error .zeroDivision ↔ ¬ ((ext.1 < 0 ∨ ext.2 < 0) ∨ lim.2 ≤ lim.1) ∧ dt = 0) ∧
    Only [.valueError, .zeroDivision] (truncIdx acc norm dt npts lim false ext) := by
  unfold truncIdx
  by_cases h1 : ext.1 < 0 ∨ ext.2 < 0
  · rw [if_pos h1]; exact ⟨by simp [h1], by simp [h1], only_err (by simp)⟩
  rw [if_neg h1]
  by_cases h2 : lim.2 ≤ lim.1
  · rw [if_pos h2]; exact ⟨by simp [h2], by simp [h2], only_err (by simp)⟩
  rw [if_neg h2]
  by_cases h3 : dt = 0
  · rw [if_pos h3]; refine ⟨by simp [h2]; simpa using h1, by simp [h2, h3]; simpa using h1, only_err (by simp)⟩
  rw [if_neg h3]
  simp only [Bool.false_eq_true, if_false, bind, Except.bind, pure, Except.pure]
  refine ⟨?_, ?_, only_ok _ _⟩
  · simp [h2]; simpa using h1
  · simp [h3]

end

example : readTwo (K := ℚ) [[(0, 1)]] (.two 0) (some 1) = .error .indexError := by decide +kernel
example : batchInit (some [.linear, .nonlinear]) = .error .typeError := by decide +kernel

end Verif
