import Verif.Model.Console
import Verif.Props.ProfileExact
import Verif.Props.EquivExact

/-!
C175: warnings about unusual profiles.  C177: the report of the equivalent-linear iteration.
-/

set_option linter.unusedSectionVars false
set_option linter.unusedVariables false

namespace Verif

namespace Spec

/-- The warning about the density, as users see it, by unit. -/
def densityWarning : DensUnit → String
  | .si => "Warning in initializing Vs_Profile: min(density) is lower than 1,000 kg/m^3. Possible error.\n"
  | .gcc => "Warning in initializing Vs_Profile: min(density) is lower than 1.0 g/cm^3. Possible error.\n"
  | .bad => ""

/-- The warning about the damping. -/
def dampingWarning : String := "Warning in initializing Vs_Profile: max(damping) larger than 100%. Possible error.\n"

/-- The warning about a surface layer of thickness `t`. -/
def surfaceWarning {K : Type} (t : K) : Text K :=
  [.txt "Warning in initializing Vs_Profile: surface layer thickness lower than 1.0 m (user provided = ", .num (some t),
    .txt "). May result in unrealistic surface layer overburden pressure.\n"]

/-- The greatest number of a list. -/
def Greatest {K : Type} [LE K] (m : K) (l : List K) : Prop := m ∈ l ∧ ∀ x ∈ l, x ≤ m

/-- `x` is the percentage shown for the change from `old` to `new`: the greatest relative change, with two decimals. -/
def ShowsChange {K : Type} [_root_.Field K] [LinearOrder K] [FloorRing K] (x : Option K) (old new : List K) : Prop :=
  (0 ∉ new → ∃ m, Greatest m (List.zipWith (fun o n => |o - n| / n) old new) ∧ x = some (fmtF 2 (m * 100))) ∧
  (0 ∈ new → x = none)

end Spec

open Spec

section Profile
variable {K : Type} [Field K] [LinearOrder K] [IsStrictOrderedRing K] [FloorRing K]

theorem min?_le {l : List K} {m : K} (h : l.min? = some m) (b : K) : m ≤ b ↔ ∃ x ∈ l, x ≤ b := by
  obtain ⟨h1, h2⟩ := List.min?_eq_some_iff.mp h
  exact ⟨fun h => ⟨m, h1, h⟩, fun ⟨x, hx, hb⟩ => (h2 x hx).trans hb⟩

theorem lt_max? {l : List K} {m : K} (h : l.max? = some m) (b : K) : b < m ↔ ∃ x ∈ l, b < x := by
  obtain ⟨h1, h2⟩ := List.max?_eq_some_iff.mp h
  exact ⟨fun h => ⟨m, h1, h⟩, fun ⟨x, hx, hb⟩ => hb.trans_le (h2 x hx)⟩

theorem densityText_eq (de : DensUnit) (rho : List K) :
    densityText de rho = if (de = .si ∧ ∃ x ∈ rho, x ≤ 1000) ∨ (de = .gcc ∧ ∃ x ∈ rho, x ≤ 1) then [.txt (densityWarning de)] else [] := by
  unfold densityText
  cases h : rho.min? with
  | none =>
    rw [List.min?_eq_none_iff] at h
    subst h
    simp
  | some m =>
    simp only [min?_le h]
    cases de <;> simp [densityWarning]

theorem dampingText_eq (du : DampUnit) (xi : List K) :
    dampingText du xi = if du = .one ∧ ∃ x ∈ xi, 1 < x then [.txt dampingWarning] else [] := by
  unfold dampingText
  cases h : xi.max? with
  | none =>
    rw [List.max?_eq_none_iff] at h
    subst h
    simp
  | some m =>
    simp only [lt_max? h]
    rfl

theorem profileConsole_text {σ : Store K} {a : Nat} {c : Cell K} (ha : σ[a]? = some c) {du : DampUnit} {de : DensUnit} {half : Bool}
    {f : Int} {r : VsObj K × Store K} (h : (profileConsole σ a du de half f).1 = .ok r) :
    (profileConsole σ a du de half f).2 = cellText du de c ∧ checkVsFormat c = .ok () ∧ du ≠ .bad ∧ de ≠ .bad := by
  unfold profileConsole at h ⊢
  simp only [mkProfile, ha, bind, Except.bind] at h
  cases hc : checkVsFormat c with
  | error e => rw [hc] at h; cases h
  | ok u =>
    rw [hc] at h
    simp only at h
    by_cases h1 : du = .bad
    · rw [if_pos h1] at h; cases h
    · rw [if_neg h1] at h
      by_cases h2 : de = .bad
      · rw [if_pos h2] at h; cases h
      · simp only [ha, hc, if_neg h1, if_neg h2]
        exact ⟨trivial, trivial, h1, h2⟩

/-- C175: for an accepted array of two columns the only possible message is the warning about the surface layer; it is printed if and only if
the first thickness is below 1 m, and it shows that thickness. -/
theorem C175_surface (σ : Store K) (a : Nat) (t v : K) (rows : List (K × K)) (ha : σ[a]? = some (.two ((t, v) :: rows))) (du : DampUnit)
    (de : DensUnit) (half : Bool) (f : Int) (r : VsObj K × Store K) (h : (profileConsole σ a du de half f).1 = .ok r) :
    (t < 1 → (profileConsole σ a du de half f).2 = surfaceWarning t) ∧ (1 ≤ t → (profileConsole σ a du de half f).2 = []) := by
  rw [(profileConsole_text ha h).1]
  simp only [cellText, surfaceText, List.map_cons]
  exact ⟨fun h => by rw [if_pos h]; rfl, fun h => by rw [if_neg (not_lt.mpr h)]⟩

/-- The stored rows of a profile made from five columns. -/
theorem stored_five {σ : Store K} {a : Nat} {rows : List (Row K)} (ha : σ[a]? = some (.five rows)) {du : DampUnit} {de : DensUnit}
    {half : Bool} {f : Int} {o : VsObj K} {σ' : Store K} (h : mkProfile σ a du de half f = .ok (o, σ')) :
    ∃ extra, σ'[o.prof]? = some (.five (rows.map (convertRow du de) ++ extra)) ∧
      ∀ e ∈ extra, ∃ r ∈ rows.map (convertRow du de), e.rho = r.rho ∧ e.xi = r.xi := by
  unfold mkProfile at h
  simp only [ha, bind, Except.bind] at h
  split at h
  · cases h
  · split at h
    · cases h
    · split at h
      · cases h
      · split at h
        · unfold finishObj at h
          simp only [bind, Except.bind] at h
          split at h
          · cases h
          · rename_i _ _ x hx
            split at hx
            · cases hx
            · cases hx
              cases h
              refine ⟨((rows.map (convertRow du de)).getLast?.map halfspaceOf).toList, ?_, ?_⟩
              · simp
              · intro e he
                cases hl : (rows.map (convertRow du de)).getLast? with
                | none => rw [hl] at he; simp at he
                | some l =>
                  rw [hl] at he
                  simp at he
                  subst he
                  exact ⟨l, List.mem_of_getLast? hl, rfl, rfl⟩
        · unfold finishObj at h
          simp only [bind, Except.bind] at h
          split at h
          · cases h
          · rename_i _ _ x hx
            split at hx
            · cases hx
            · cases hx
              cases h
              refine ⟨[], ?_, by simp⟩
              simp

/-- C175: an array of five columns gives the warning about the density if and only if some density of the stored profile is at most
1000 kg/m³, whichever unit the array was in. -/
theorem C175_density (σ : Store K) (a : Nat) (rows : List (Row K)) (ha : σ[a]? = some (.five rows)) (du : DampUnit) (de : DensUnit)
    (half : Bool) (f : Int) (o : VsObj K) (σ' : Store K) (h : (profileConsole σ a du de half f).1 = .ok (o, σ'))
    (full : List (Row K)) (hf : σ'[o.prof]? = some (.five full)) :
    .txt (densityWarning de) ∈ (profileConsole σ a du de half f).2 ↔ ∃ r ∈ full, r.rho ≤ 1000 := by
  obtain ⟨ht, _, hdu, hde⟩ := profileConsole_text ha h
  obtain ⟨extra, hs, he⟩ := stored_five ha h
  rw [hf] at hs
  cases hs
  rw [ht]
  have key : (∃ r ∈ rows.map (convertRow du de) ++ extra, r.rho ≤ 1000) ↔ ∃ r ∈ rows.map (convertRow du de), r.rho ≤ 1000 := by
    constructor
    · rintro ⟨r, hr, h1⟩
      rcases List.mem_append.mp hr with h2 | h2
      · exact ⟨r, h2, h1⟩
      · obtain ⟨q, hq, h3, _⟩ := he r h2
        exact ⟨q, hq, h3 ▸ h1⟩
    · rintro ⟨r, hr, h1⟩
      exact ⟨r, List.mem_append_left _ hr, h1⟩
  rw [key, cellText, densityText_eq, dampingText_eq]
  have hne : densityWarning de ≠ dampingWarning := by cases de <;> simp [densityWarning, dampingWarning]
  have hd : ¬ (Piece.txt (densityWarning de) : Piece K) ∈ (if du = .one ∧ ∃ x ∈ rows.map Row.xi, 1 < x then [.txt dampingWarning] else []) := by
    split
    · simp [hne]
    · simp
  rw [List.mem_append, or_iff_left hd]
  cases de with
  | bad => exact absurd rfl hde
  | si => simp [convertRow]
  | gcc =>
    have e : ∀ x : K, x * 1000 ≤ 1000 ↔ x ≤ 1 := fun x => by
      constructor <;> intro h <;> linarith
    simp [convertRow, e]

/-- C175: with damping given as a ratio, the warning about the damping is printed if and only if some damping of the stored profile is above
1 (100%).  Missing: damping given in percent. -/
theorem C175_damping_partial (σ : Store K) (a : Nat) (rows : List (Row K)) (ha : σ[a]? = some (.five rows)) (de : DensUnit)
    (half : Bool) (f : Int) (o : VsObj K) (σ' : Store K) (h : (profileConsole σ a .one de half f).1 = .ok (o, σ'))
    (full : List (Row K)) (hf : σ'[o.prof]? = some (.five full)) :
    .txt dampingWarning ∈ (profileConsole σ a .one de half f).2 ↔ ∃ r ∈ full, 1 < r.xi := by
  obtain ⟨ht, _, hdu, hde⟩ := profileConsole_text ha h
  obtain ⟨extra, hs, he⟩ := stored_five ha h
  rw [hf] at hs
  cases hs
  rw [ht]
  have key : (∃ r ∈ rows.map (convertRow .one de) ++ extra, 1 < r.xi) ↔ ∃ r ∈ rows.map (convertRow .one de), 1 < r.xi := by
    constructor
    · rintro ⟨r, hr, h1⟩
      rcases List.mem_append.mp hr with h2 | h2
      · exact ⟨r, h2, h1⟩
      · obtain ⟨q, hq, _, h3⟩ := he r h2
        exact ⟨q, hq, h3 ▸ h1⟩
    · rintro ⟨r, hr, h1⟩
      exact ⟨r, List.mem_append_left _ hr, h1⟩
  rw [key, cellText, densityText_eq, dampingText_eq]
  have hne : dampingWarning ≠ densityWarning de := by cases de <;> simp [densityWarning, dampingWarning]
  have hd : ¬ (Piece.txt dampingWarning : Piece K) ∈ (if (de = .si ∧ ∃ x ∈ rows.map Row.rho, x ≤ 1000) ∨
      (de = .gcc ∧ ∃ x ∈ rows.map Row.rho, x ≤ 1) then [.txt (densityWarning de)] else []) := by
    split
    · simp [hne]
    · simp
  rw [List.mem_append, or_iff_right hd]
  simp [convertRow]

/-- C175 fails for damping in percent: no message is printed about it, however large the damping is (the same profile with its damping as a
ratio is warned about). -/
theorem C175_percent_violated (σ : Store K) (a : Nat) (rows : List (Row K)) (ha : σ[a]? = some (.five rows)) (de : DensUnit) (half : Bool)
    (f : Int) : .txt dampingWarning ∉ (profileConsole σ a .pct de half f).2 := by
  have hne : dampingWarning ≠ densityWarning de := by cases de <;> simp [densityWarning, dampingWarning]
  unfold profileConsole
  simp only [ha]
  cases checkVsFormat (Cell.five rows) with
  | error e => simp
  | ok u =>
    simp only [cellText, densityText_eq, dampingText_eq]
    cases de <;> simp [hne] <;> split <;> simp [hne] <;> simp [densityWarning, dampingWarning]

/-- C175 fails for five columns: nothing is ever said about the surface layer, however thin it is: the output consists of at most the two
warnings about density and damping. -/
theorem C175_thin_surface_violated (σ : Store K) (a : Nat) (rows : List (Row K)) (ha : σ[a]? = some (.five rows)) (du : DampUnit)
    (de : DensUnit) (half : Bool) (f : Int) :
    ∀ p ∈ (profileConsole σ a du de half f).2, p = .txt (densityWarning de) ∨ p = .txt dampingWarning := by
  unfold profileConsole
  simp only [ha]
  cases checkVsFormat (Cell.five rows) with
  | error e => simp
  | ok u =>
    simp only [cellText, densityText_eq, dampingText_eq]
    intro p hp
    split at hp
    · simp at hp
    · split at hp
      · simp at hp
      · rcases List.mem_append.mp hp with h | h
        · split at h
          · left; simpa using h
          · simp at h
        · split at h
          · right; simpa using h
          · simp at h

/-- C175 fails for a density of exactly 1000 kg/m³ (water): it is reported as lower than 1,000 kg/m³. -/
theorem C175_water_violated (σ : Store K) (a : Nat) (rows : List (Row K)) (ha : σ[a]? = some (.five rows)) (du : DampUnit) (half : Bool)
    (f : Int) (o : VsObj K) (σ' : Store K) (h : (profileConsole σ a du .si half f).1 = .ok (o, σ'))
    (hmin : ∀ r ∈ rows, 1000 ≤ r.rho) (r : Row K) (hr : r ∈ rows) (hw : r.rho = 1000) :
    .txt (densityWarning .si) ∈ (profileConsole σ a du .si half f).2 := by
  obtain ⟨ht, _⟩ := profileConsole_text ha h
  rw [ht, cellText, densityText_eq, if_pos (.inl ⟨rfl, 1000, List.mem_map.mpr ⟨r, hr, hw⟩, le_refl _⟩)]
  simp

/-- C175: a rejected profile gives an exception and no message. -/
theorem C175_rejected (σ : Store K) (a : Nat) (c : Cell K) (ha : σ[a]? = some c) (du : DampUnit) (de : DensUnit) (half : Bool) (f : Int)
    (e : PyErr) (h : checkVsFormat c = .error e) :
    (profileConsole σ a du de half f).1 = .error e ∧ (profileConsole σ a du de half f).2 = [] := by
  unfold profileConsole mkProfile
  simp only [ha, h, bind, Except.bind]
  exact ⟨trivial, trivial⟩

example : (profileConsole [.two [((1 : ℚ) / 2, 200), (0, 800)]] 0 .one .si false 3).2 = surfaceWarning (1 / 2) := by decide +kernel

example : (profileConsole [.five [⟨(1 : ℚ) / 2, 200, 150, 1, 1⟩, ⟨0, 800, 1, 2, 0⟩]] 0 .pct .gcc false 3).2 = [.txt (densityWarning .gcc)] := by
  decide +kernel

end Profile

/-! ## C177 -/

section Equiv
variable {K : Type} [Field K] [LinearOrder K] [IsStrictOrderedRing K] [FloorRing K]

theorem optMapM_map {α β : Type} (f : α → β) (l : List α) : l.mapM (fun x => some (f x)) = some (l.map f) := by
  induction l with
  | nil => rfl
  | cons a l ih => rw [List.mapM_cons, ih]; rfl

theorem optMapM_none {α β : Type} {f : α → Option β} {l : List α} {a : α} (ha : a ∈ l) (hf : f a = none) : l.mapM f = none := by
  induction l with
  | nil => cases ha
  | cons b l ih =>
    rw [List.mapM_cons]
    rcases List.mem_cons.mp ha with rfl | h
    · rw [hf]; rfl
    · rw [ih h]
      cases f b <;> rfl

theorem maxRelDiff_shows (old new : List K) (hl : old.length = new.length) (hne : new ≠ []) :
    ShowsChange ((maxRelDiff old new).map fun x => fmtF 2 (x * 100)) old new := by
  unfold ShowsChange maxRelDiff
  constructor
  · intro h0
    have hm : ((old.zip new).mapM fun x => if x.2 = 0 then none else some (|x.1 - x.2| / x.2)) =
        some ((old.zip new).map fun x => |x.1 - x.2| / x.2) := by
      rw [← optMapM_map]
      have : ∀ x ∈ old.zip new, (if x.2 = 0 then none else some (|x.1 - x.2| / x.2)) = some (|x.1 - x.2| / x.2) := by
        intro x hx
        rw [if_neg]
        intro e
        exact h0 (e ▸ (List.of_mem_zip hx).2)
      generalize old.zip new = l at this
      induction l with
      | nil => rfl
      | cons a l ih =>
        rw [List.mapM_cons, List.mapM_cons, this a List.mem_cons_self, ih fun x hx => this x (List.mem_cons_of_mem _ hx)]
    rw [hm]
    have hz : List.zipWith (fun o n => |o - n| / n) old new = (old.zip new).map fun x => |x.1 - x.2| / x.2 := by
      rw [List.zip, List.map_zipWith]
    rw [hz]
    cases hx : ((old.zip new).map fun x => |x.1 - x.2| / x.2).max? with
    | none =>
      rw [List.max?_eq_none_iff] at hx
      have := congrArg List.length hx
      simp [hl] at this
      exact absurd this hne
    | some m =>
      obtain ⟨h1, h2⟩ := List.max?_eq_some_iff.mp hx
      exact ⟨m, ⟨h1, h2⟩, by simp [hx]⟩
  · intro h0
    obtain ⟨k, hk, hk0⟩ := List.getElem_of_mem h0
    have hmem : (old[k]'(by omega), new[k]) ∈ old.zip new := by
      rw [List.mem_iff_getElem]
      exact ⟨k, by simp; omega, by simp⟩
    rw [optMapM_none hmem (by simp [hk0])]
    rfl

theorem curr_fst {R : Type} {m : Nat} {s : EqState K R} (hs : EqWF m s) : s.curr.map Prod.fst = s.G.dropLast := by
  unfold EqState.curr
  rw [List.map_fst_zip]
  simp [hs.prof, hs.G]

theorem curr_snd {R : Type} {m : Nat} {s : EqState K R} (hs : EqWF m s) : s.curr.map Prod.snd = s.prof.dropLast.map Row.xi := by
  unfold EqState.curr
  rw [List.map_snd_zip]
  simp [hs.prof, hs.G]

/-- The line of a pass. -/
def Spec.passLine (i : Nat) (x y : Option K) : Text K :=
  [.txt "Iteration No.", .num (some (i : K)), .txt ".", .txt "  G_diff = ", .num x, .txt "%, D_diff = ", .num y, .txt "%\n"]

theorem eqStepText_ok {R : Type} {resp : RespFn K R} {gmax : List K} {cs : List (LayCurve K)} {tol : K} {m : Nat} {s s' : EqState K R}
    {conv : Bool} (hresp : OneStrainPerLayer resp) (hg : gmax.length = m + 1) (hc : cs.length = m) (hs : EqWF m s)
    (h : eqStep resp gmax cs tol s = .ok (s', conv)) :
    ∃ x y, ShowsChange x (s.curr.map Prod.fst) (s'.curr.map Prod.fst) ∧ ShowsChange y (s.curr.map Prod.snd) (s'.curr.map Prod.snd) ∧
      ∀ i, ([.txt "Iteration No.", .num (some (i : K)), .txt "."] ++ eqStepText resp gmax cs s) = Spec.passLine i x y := by
  have ps := eqStep_spec hresp hg hc hs h
  have hlen : s.curr.length = s'.curr.length := by
    rw [ps.len]; unfold EqState.curr; simp [hs.prof, hs.G]
  unfold eqStep at h
  cases hr : resp (s.prof.map Row.thk) s.G (s.prof.map Row.xi) (s.prof.map Row.rho) with
  | error e => rw [hr] at h; cases h
  | ok r =>
    rw [hr] at h
    cases hn : eqUpdate gmax.dropLast cs r.2 with
    | error e => simp only [bind, Except.bind, hn] at h; cases h
    | ok new =>
      simp only [bind, Except.bind, hn] at h
      by_cases hnil : new = []
      · rw [if_pos hnil] at h; cases h
      · rw [if_neg hnil] at h
        obtain ⟨e1, _⟩ := Prod.mk.inj (Except.ok.inj h)
        have hnew : new = s'.curr := by
          have h1 := ps.hist
          rw [← e1] at h1
          rw [← e1]
          simpa using List.append_cancel_left h1
        refine ⟨_, _, maxRelDiff_shows _ _ (by simp [hlen]) ?_, maxRelDiff_shows _ _ (by simp [hlen]) ?_, ?_⟩
        · rw [← hnew]; simpa using hnil
        · rw [← hnew]; simpa using hnil
        · intro i
          unfold eqStepText
          simp only [hr, hn, if_neg hnil]
          rw [← curr_fst hs, ← curr_snd hs, hnew]
          rfl

/-- Output of the loop: one line per pass, and the message of convergence after the last one. -/
theorem eqLoopText_ok {R : Type} {resp : RespFn K R} {gmax : List K} {cs : List (LayCurve K)} {tol : K} {m : Nat}
    (hresp : OneStrainPerLayer resp) (hg : gmax.length = m + 1) (hc : cs.length = m) :
    ∀ (n i : Nat) (s s' : EqState K R) (h : List (List (K × K))), EqWF m s → s'.hist = s.hist ++ h →
    eqLoop resp gmax cs tol true n s = .ok s' →
    ∃ xs ys : Nat → Option K,
      (∀ k, k < h.length → ShowsChange (xs k) ((before s.curr h k).map Prod.fst) ((before s.curr h (k + 1)).map Prod.fst) ∧
        ShowsChange (ys k) ((before s.curr h k).map Prod.snd) ((before s.curr h (k + 1)).map Prod.snd)) ∧
      ((0 < h.length ∧ CloseTo tol (before s.curr h (h.length - 1)) (before s.curr h h.length)) →
        eqLoopText resp gmax cs tol true n i s =
          ((List.range h.length).flatMap fun k => Spec.passLine (i + k + 1) (xs k) (ys k)) ++ convText) ∧
      (¬ (0 < h.length ∧ CloseTo tol (before s.curr h (h.length - 1)) (before s.curr h h.length)) →
        eqLoopText resp gmax cs tol true n i s = (List.range h.length).flatMap fun k => Spec.passLine (i + k + 1) (xs k) (ys k)) := by
  intro n
  induction n with
  | zero =>
    intro i s s' h hs hh hl
    cases hl
    have : h = [] := List.self_eq_append_right.mp hh
    subst this
    exact ⟨fun _ => none, fun _ => none, by simp, by simp, by simp [eqLoopText]⟩
  | succ n ih =>
    intro i s s' h hs hh hl
    rw [eqLoop] at hl
    cases hst : eqStep resp gmax cs tol s with
    | error e => rw [hst] at hl; cases hl
    | ok p =>
      obtain ⟨s1, conv⟩ := p
      rw [hst] at hl
      simp only at hl
      have ps := eqStep_spec hresp hg hc hs hst
      obtain ⟨x, y, hx, hy, hline⟩ := eqStepText_ok hresp hg hc hs hst
      have htext : eqLoopText resp gmax cs tol true (n + 1) i s =
          Spec.passLine (i + 1) x y ++ (if (conv && true) = true then convText else eqLoopText resp gmax cs tol true n (i + 1) s1) := by
        rw [eqLoopText, hst]
        simp only [say, if_true]
        rw [← hline (i + 1)]
      cases hcv : conv with
      | true =>
        rw [hcv] at hl htext
        simp only [Bool.and_self, if_true] at hl htext
        cases hl
        have h1 : h = [s'.curr] := by
          have := ps.hist; rw [hh] at this; exact List.append_cancel_left this
        subst h1
        have hclose : CloseTo tol s.curr s'.curr := ps.conv_iff.mp hcv
        refine ⟨fun _ => x, fun _ => y, ?_, ?_, ?_⟩
        · intro k hk
          simp at hk
          subst hk
          exact ⟨by simpa [before] using hx, by simpa [before] using hy⟩
        · intro _
          rw [htext]
          simp
        · intro hn
          exact absurd ⟨by simp, by simpa [before] using hclose⟩ hn
      | false =>
        rw [hcv] at hl htext
        simp only [Bool.false_and, Bool.false_eq_true, if_false] at hl htext
        obtain ⟨h', ls⟩ := eqLoop_spec hresp hg hc n s1 s' ps.wf hl
        have hh' : h = s1.curr :: h' := by
          have := ls.hist
          rw [hh, ps.hist, List.append_assoc] at this
          exact List.append_cancel_left this
        obtain ⟨xs, ys, hsh, hc1, hc2⟩ := ih (i + 1) s1 s' h' ps.wf ls.hist hl
        have hnc : ¬ CloseTo tol s.curr s1.curr := fun hh => by
          have := ps.conv_iff.mpr hh
          rw [hcv] at this
          cases this
        have hrange : ∀ zs : Nat → Text K, (List.range (h'.length + 1)).flatMap zs =
            zs 0 ++ (List.range h'.length).flatMap fun k => zs (k + 1) := by
          intro zs
          rw [List.range_succ_eq_map, List.flatMap_cons, List.flatMap_map]
        have hcond : (0 < h.length ∧ CloseTo tol (before s.curr h (h.length - 1)) (before s.curr h h.length)) ↔
            (0 < h'.length ∧ CloseTo tol (before s1.curr h' (h'.length - 1)) (before s1.curr h' h'.length)) := by
          rw [hh']
          cases h' with
          | nil => simpa [before] using hnc
          | cons v t =>
            simp only [List.length_cons, Nat.add_sub_cancel, before_cons, Nat.zero_lt_succ, true_and]
        have hlines : Spec.passLine (i + 1) x y ++ ((List.range h'.length).flatMap fun k => Spec.passLine (i + 1 + k + 1) (xs k) (ys k)) =
            (List.range h.length).flatMap fun k => Spec.passLine (i + k + 1) (if k = 0 then x else xs (k - 1)) (if k = 0 then y else ys (k - 1)) := by
          rw [hh', List.length_cons, hrange]
          simp only [if_true, Nat.add_zero, Nat.add_sub_cancel, Nat.add_eq_zero_iff, Nat.one_ne_zero, and_false, if_false]
          congr 2
          funext k
          congr 1
          omega
        refine ⟨fun k => if k = 0 then x else xs (k - 1), fun k => if k = 0 then y else ys (k - 1), ?_, ?_, ?_⟩
        · intro k hk
          rw [hh'] at hk ⊢
          cases k with
          | zero => exact ⟨by simpa [before] using hx, by simpa [before] using hy⟩
          | succ k =>
            simp only [List.length_cons, Nat.add_lt_add_iff_right] at hk
            simp only [before_cons, Nat.add_eq_zero_iff, Nat.one_ne_zero, and_false, if_false, Nat.add_sub_cancel]
            exact hsh k hk
        · intro hcl
          rw [htext, hc1 (hcond.mp hcl), ← List.append_assoc, hlines]
        · intro hcl
          rw [htext, hc2 (fun hh => hcl (hcond.mpr hh)), hlines]

theorem eqIterate_inv_text {R : Type} {resp : RespFn K R} {prof : List (Row K)} {cols : List (List K)} {tol : K} {maxIter : Int} {v : Bool}
    {s : EqState K R} {r : R} (hne : prof ≠ []) (h : eqIterate resp prof cols tol maxIter v = .ok (s, r)) :
    ∃ cs, cs.length = prof.length - 1 ∧
      eqLoop resp (prof.map fun r => r.rho * r.vs ^ 2) cs tol v maxIter.toNat ⟨prof, prof.map fun r => r.rho * r.vs ^ 2, none, []⟩ = .ok s ∧
      ∀ w, eqIterateText resp prof cols tol maxIter w =
        eqLoopText resp (prof.map fun r => r.rho * r.vs ^ 2) cs tol w maxIter.toNat 0 ⟨prof, prof.map fun r => r.rho * r.vs ^ 2, none, []⟩ := by
  obtain ⟨cs, hc, hl⟩ := eqIterate_loop h
  refine ⟨cs, ?_, hl, ?_⟩
  · have := (mapM_ok _ _ _ hc).1
    simpa using this
  · intro w
    unfold eqIterateText
    rw [hc]
    cases hm : checkMaxIter maxIter with
    | error e =>
      unfold eqIterate at h
      simp only [bind, Except.bind, hc, hm] at h
      cases h
    | ok u => rfl

/-- C177: the report of a finished equivalent-linear iteration with `verbose=True`.  There is one line per pass, numbered from 1, and nothing
else, except that the message of convergence follows the last line if and only if all moduli and damping ratios changed by less than `tol` in
the last pass.  The line of a pass shows, in percent with two decimals, the greatest relative changes of the moduli and of the damping ratios in
that pass (`before … k` being the values before pass `k + 1`). -/
theorem C177_report {R : Type} {resp : RespFn K R} {prof : List (Row K)} {cols : List (List K)} {tol : K} {maxIter : Int} {s : EqState K R}
    {r : R} (hne : prof ≠ []) (hresp : OneStrainPerLayer resp) (h : eqIterate resp prof cols tol maxIter true = .ok (s, r)) :
    ∃ xs ys : Nat → Option K,
      (∀ k, k < s.hist.length →
        ShowsChange (xs k) ((before (initial prof) s.hist k).map Prod.fst) ((before (initial prof) s.hist (k + 1)).map Prod.fst) ∧
        ShowsChange (ys k) ((before (initial prof) s.hist k).map Prod.snd) ((before (initial prof) s.hist (k + 1)).map Prod.snd)) ∧
      ((0 < s.hist.length ∧ CloseTo tol (before (initial prof) s.hist (s.hist.length - 1)) (before (initial prof) s.hist s.hist.length)) →
        eqIterateText resp prof cols tol maxIter true =
          ((List.range s.hist.length).flatMap fun k => Spec.passLine (k + 1) (xs k) (ys k)) ++
            [.txt "---------- Convergence achieved ---------------\n"]) ∧
      (¬ (0 < s.hist.length ∧ CloseTo tol (before (initial prof) s.hist (s.hist.length - 1)) (before (initial prof) s.hist s.hist.length)) →
        eqIterateText resp prof cols tol maxIter true = (List.range s.hist.length).flatMap fun k => Spec.passLine (k + 1) (xs k) (ys k)) := by
  obtain ⟨cs, hcl, hl, ht⟩ := eqIterate_inv_text hne h
  have hpos : 0 < prof.length := List.length_pos_iff.mpr hne
  obtain ⟨xs, ys, h1, h2, h3⟩ := eqLoopText_ok (m := prof.length - 1) hresp (by simp; omega) hcl _ 0 _ s s.hist
    ⟨by simp; omega, by simp; omega⟩ (by simp) hl
  rw [initial_curr] at h1 h2 h3
  rw [ht]
  simp only [Nat.zero_add] at h2 h3
  exact ⟨xs, ys, h1, h2, h3⟩

theorem eqLoopText_silent {R : Type} (resp : RespFn K R) (gmax : List K) (cs : List (LayCurve K)) (tol : K) :
    ∀ (n i : Nat) (s : EqState K R), eqLoopText resp gmax cs tol false n i s = [] := by
  intro n
  induction n with
  | zero => intro i s; rfl
  | succ n ih =>
    intro i s
    rw [eqLoopText]
    simp only [say, Bool.false_eq_true, if_false, List.nil_append]
    cases eqStep resp gmax cs tol s with
    | error e => rfl
    | ok p => simp [ih]

/-- C177: with `verbose=False` the iteration prints nothing, whatever happens. -/
theorem C177_silent {R : Type} (resp : RespFn K R) (prof : List (Row K)) (cols : List (List K)) (tol : K) (maxIter : Int) :
    eqIterateText resp prof cols tol maxIter false = [] := by
  unfold eqIterateText
  cases layCurves cols prof with
  | error e => rfl
  | ok cs =>
    cases checkMaxIter maxIter with
    | error e => rfl
    | ok u => exact eqLoopText_silent _ _ _ _ _ _ _

/-- C177: if the report ends with the message of convergence, the greatest changes shown in the last line are below `tol` (before rounding to
two decimals of a percent). -/
theorem C177_converged {R : Type} {resp : RespFn K R} {prof : List (Row K)} {cols : List (List K)} {tol : K} {maxIter : Int} {s : EqState K R}
    {r : R} (hne : prof ≠ []) (hresp : OneStrainPerLayer resp) (h : eqIterate resp prof cols tol maxIter true = .ok (s, r))
    (hconv : .txt "---------- Convergence achieved ---------------\n" ∈ eqIterateText resp prof cols tol maxIter true) :
    CloseTo tol (before (initial prof) s.hist (s.hist.length - 1)) (before (initial prof) s.hist s.hist.length) := by
  obtain ⟨xs, ys, _, _, h3⟩ := C177_report hne hresp h
  by_contra hcon
  rw [h3 fun h => hcon h.2] at hconv
  simp [Spec.passLine] at hconv

/-- C177 fails for an iteration that does not converge: when all passes are used up without convergence, the output consists of the lines of
the passes only, nothing tells the user that the result did not converge. -/
theorem C177_unconverged_violated {R : Type} {resp : RespFn K R} {prof : List (Row K)} {cols : List (List K)} {tol : K} {maxIter : Int}
    {s : EqState K R} {r : R} (hne : prof ≠ []) (hresp : OneStrainPerLayer resp)
    (h : eqIterate resp prof cols tol maxIter true = .ok (s, r))
    (hno : ¬ CloseTo tol (before (initial prof) s.hist (s.hist.length - 1)) (before (initial prof) s.hist s.hist.length)) :
    (eqIterateText resp prof cols tol maxIter true).words =
      (List.replicate s.hist.length ["Iteration No.", ".", "  G_diff = ", "%, D_diff = ", "%\n"]).flatten := by
  obtain ⟨xs, ys, _, _, h3⟩ := C177_report hne hresp h
  rw [h3 fun h => hno h.2]
  generalize s.hist.length = n
  have : ∀ (n : Nat) (i : Nat), Text.words ((List.range n).flatMap fun k => Spec.passLine (k + 1) (xs k) (ys k)) =
      (List.replicate n ["Iteration No.", ".", "  G_diff = ", "%, D_diff = ", "%\n"]).flatten := by
    intro n _
    induction n with
    | zero => rfl
    | succ n ih =>
      rw [List.range_succ, List.flatMap_append, List.replicate_succ', List.flatten_append]
      unfold Text.words at ih ⊢
      rw [List.filterMap_append, ih]
      rfl
  exact this n 0

/-- C177: if the response calculation fails in the first pass, the output is the beginning of the first line. -/
theorem C177_failed {R : Type} {resp : RespFn K R} {prof : List (Row K)} {cols : List (List K)} {tol : K} {maxIter : Int} {e : PyErr}
    {cs : List (LayCurve K)} (hc : layCurves cols prof = .ok cs) (hpos : 0 < maxIter)
    (hr : resp (prof.map Row.thk) (prof.map fun r => r.rho * r.vs ^ 2) (prof.map Row.xi) (prof.map Row.rho) = .error e) :
    eqIterate resp prof cols tol maxIter true = .error e ∧
    eqIterateText resp prof cols tol maxIter true = [.txt "Iteration No.", .num (some 1), .txt "."] := by
  have hm : checkMaxIter maxIter = .ok () := by unfold checkMaxIter; rw [if_neg (by omega), if_neg (by omega)]
  obtain ⟨n, hn⟩ : ∃ n, maxIter.toNat = n + 1 := ⟨maxIter.toNat - 1, by omega⟩
  have hst : eqStep resp (prof.map fun r => r.rho * r.vs ^ 2) cs tol (⟨prof, prof.map fun r => r.rho * r.vs ^ 2, none, []⟩ : EqState K R) =
      .error e := by
    unfold eqStep
    simp only [hr, bind, Except.bind]
  constructor
  · unfold eqIterate
    simp only [bind, Except.bind, hc, hm, hn, eqLoop, hst]
  · unfold eqIterateText
    simp only [hc, hm, hn, eqLoopText, hst, say, if_true, eqStepText, hr]
    simp

example : eqIterateText exResp exProf exCols (1 / 1000) 3 true = Spec.passLine 1 (some (3311 / 100)) (some (8326 / 100)) ++
    Spec.passLine 2 (some 0) (some 0) ++ [.txt "---------- Convergence achieved ---------------\n"] := by decide +kernel

end Equiv

end Verif
