import Verif.Model.Scores
import Mathlib.Algebra.Order.Ring.Rat
import Mathlib.Data.List.Basic
import Mathlib.Tactic.Linarith

/-!
Properties C56 and C97: the score objects and batches of them.
-/

set_option linter.unusedSectionVars false
set_option linter.unusedVariables false

namespace Verif

variable {K V : Type} [Field K] [LinearOrder K]

namespace Spec

/-- The four groups of scores, in the order of computation. -/
inductive Grp where
  | arias | rms | spectra | cross
  deriving DecidableEq

/-- Slot of the first score of a group, from 0. -/
def Grp.first : Grp → Nat
  | .arias => 0
  | .rms => 4
  | .spectra => 7
  | .cross => 9

/-- Number of scores of a group. -/
def Grp.size : Grp → Nat
  | .arias => 4
  | .rms => 3
  | .spectra => 2
  | .cross => 1

/-- Is the group asked for? -/
def Grp.wanted (o : ScoreOpts K) : Grp → Bool
  | .arias => o.arias
  | .rms => o.rms
  | .spectra => o.spectra
  | .cross => o.cross

/-- The scores of a group for a frequency range. -/
def Grp.compute (g : ScoreFns K V) (o : ScoreOpts K) (f : K × K) : Grp → Except PyErr (List (Option V))
  | .arias => g.arias f.1 f.2 o.baseline
  | .rms => g.rms f.1 f.2 o.baseline
  | .spectra => g.spectra f.1 f.2 o.baseline
  | .cross => g.cross f.1 f.2 o.baseline

/-- The frequency range: given, or from the sampling frequency to the power of the record's length. -/
def Band (x : Rec K) (o : ScoreOpts K) (f : K × K) : Prop :=
  ∃ t0 t1 : K, (x.map Prod.fst)[0]? = some t0 ∧ (x.map Prod.fst)[1]? = some t1 ∧ t1 - t0 ≠ 0 ∧
    f.1 = (match o.fmin with | some v => v | none => 1 / (t1 - t0) / (x.length : K)) ∧
    f.2 = (match o.fmax with | some v => v | none => 1 / (t1 - t0) / 2) ∧ f.1 < f.2

/-- A call computes the scores `sc` of the group `G`: it is asked for, and neither it nor an earlier
group asked for fails. -/
def Computes (g : ScoreFns K V) (x : Rec K) (o : ScoreOpts K) (G : Grp) (sc : List (Option V)) : Prop :=
  ∃ f, Band x o f ∧ G.wanted o = true ∧ G.compute g o f = .ok sc ∧
    ∀ G' : Grp, G'.first < G.first → G'.wanted o = true → ∃ sc', G'.compute g o f = .ok sc'

/-- A call computes the value `v` for slot `k`. -/
def Fills (g : ScoreFns K V) (x : Rec K) (o : ScoreOpts K) (k : Nat) (v : Option V) : Prop :=
  ∃ (G : Grp) (sc : List (Option V)) (j : Nat), Computes g x o G sc ∧ k = G.first + j ∧ sc[j]? = some v

/-- Each group has as many scores as it has slots. -/
def Sized (g : ScoreFns K V) : Prop := ∀ (o : ScoreOpts K) f (G : Grp) sc, G.compute g o f = .ok sc → sc.length = G.size

end Spec

open Spec (Grp Band Computes Fills Sized)

theorem scoreRange_band {x : Rec K} {o : ScoreOpts K} {f : K × K} : scoreRange x o.fmin o.fmax = .ok f ↔ Band x o f := by
  unfold scoreRange Spec.Band
  match x with
  | [] => simp [dtOf, bind, Except.bind]
  | [a] => simp [dtOf, bind, Except.bind]
  | a :: b :: x =>
    simp only [dtOf, bind, Except.bind, List.map_cons, List.getElem?_cons_zero, List.getElem?_cons_succ, Option.some.injEq]
    constructor
    · intro h
      split at h
      · cases h
      · rename_i hn
        split at h
        · cases h
        · rename_i hl
          cases h
          refine ⟨_, _, rfl, rfl, hn, ?_, ?_, lt_of_not_ge hl⟩
          · cases o.fmin <;> rfl
          · cases o.fmax <;> rfl
    · rintro ⟨t0, t1, rfl, rfl, hn, h1, h2, hl⟩
      rw [if_neg hn]
      have e1 : o.fmin.getD (1 / (b.1 - a.1) / ((a :: b :: x).length : K)) = f.1 := by rw [h1]; cases o.fmin <;> rfl
      have e2 : o.fmax.getD (1 / (b.1 - a.1) / 2) = f.2 := by rw [h2]; cases o.fmax <;> rfl
      rw [e1, e2, if_neg (not_le.mpr hl)]

theorem scoreRange_error {x : Rec K} {o : ScoreOpts K} {e : PyErr} (h : scoreRange x o.fmin o.fmax = .error e) (f : K × K) :
    ¬ Band x o f := by
  intro hb
  rw [scoreRange_band.mpr hb] at h; cases h

/-- One group of `calc_scores`. -/
def gstep (g : ScoreFns K V) (o : ScoreOpts K) (f : K × K) (st : Except PyErr (List (Option V)) × List (Option V)) (G : Grp) :
    Except PyErr (List (Option V)) × List (Option V) := runGroup (G.wanted o) G.first (G.compute g o f) st

theorem calcScores_fold (g : ScoreFns K V) (x : Rec K) (o : ScoreOpts K) (σ : List (Option V)) (f : K × K)
    (h : scoreRange x o.fmin o.fmax = .ok f) :
    calcScores g x o σ = [Grp.arias, .rms, .spectra, .cross].foldl (gstep g o f) (.ok [], σ) := by
  obtain ⟨lo, hi⟩ := f
  unfold calcScores
  rw [h]
  rfl

theorem putScores_get (off : Nat) (sc σ : List (Option V)) (hl : off + sc.length ≤ σ.length) (k : Nat) :
    (putScores off sc σ)[k]? = if off ≤ k ∧ k < off + sc.length then sc[k - off]? else σ[k]? := by
  unfold putScores
  have h1 : (σ.take off).length = off := by simp; omega
  by_cases c1 : k < off
  · rw [if_neg (by omega), List.append_assoc, List.getElem?_append_left (by omega), List.getElem?_take_of_lt c1]
  · by_cases c2 : k < off + sc.length
    · rw [if_pos (by omega), List.append_assoc, List.getElem?_append_right (by omega), List.getElem?_append_left (by omega), h1]
    · rw [if_neg (by omega), List.getElem?_append_right (by simp; omega)]
      simp only [List.length_append, List.length_take, List.getElem?_drop]
      congr 1; omega

theorem putScores_length (off : Nat) (sc σ : List (Option V)) (hl : off + sc.length ≤ σ.length) :
    (putScores off sc σ).length = σ.length := by
  unfold putScores; simp; omega

theorem gstep_length (g : ScoreFns K V) (hz : Sized g) (o : ScoreOpts K) (f : K × K)
    (st : Except PyErr (List (Option V)) × List (Option V)) (G : Grp) (h : st.2.length = 10) : (gstep g o f st G).2.length = 10 := by
  unfold gstep runGroup
  cases h1 : st.1 with
  | error e => simpa using h
  | ok acc =>
    simp only
    split
    · cases h2 : G.compute g o f with
      | error e => simpa using h
      | ok sc =>
        have := hz _ _ _ _ h2
        simp only
        rw [putScores_length _ _ _ (by rw [this, h]; cases G <;> decide), h]
    · exact h

theorem foldl_error (g : ScoreFns K V) (o : ScoreOpts K) (f : K × K) (l : List Grp) (e : PyErr) (σ : List (Option V)) :
    l.foldl (gstep g o f) (.error e, σ) = (.error e, σ) := by
  induction l with
  | nil => rfl
  | cons a l ih => rw [List.foldl_cons]; exact ih

/-- The slot `k` lies in the group. -/
def Grp.has (G : Grp) (k : Nat) : Prop := G.first ≤ k ∧ k < G.first + G.size

instance (G : Grp) (k : Nat) : Decidable (Grp.has G k) := by unfold Grp.has; infer_instance

theorem has_unique {G G' : Grp} {k : Nat} (h : Grp.has G k) (h' : Grp.has G' k) : G = G' := by
  unfold Grp.has at h h'
  cases G <;> cases G' <;> simp only [Grp.first, Grp.size] at h h' <;> first | rfl | (exfalso; omega)

/-- A group which is computed is stored. -/
theorem fold_done (g : ScoreFns K V) (hz : Sized g) (o : ScoreOpts K) (f : K × K) (k : Nat) (G : Grp) (hk : Grp.has G k)
    (sc : List (Option V)) (hw : G.wanted o = true) (hc : G.compute g o f = .ok sc) :
    ∀ (pre post : List Grp), (∀ G' ∈ pre, G'.wanted o = true → ∃ s, G'.compute g o f = .ok s) → G ∉ post →
      ∀ acc σ, σ.length = 10 → (((pre ++ G :: post).foldl (gstep g o f) (.ok acc, σ)).2)[k]? = sc[k - G.first]? := by
  -- later groups do not touch the slot
  have later : ∀ (post : List Grp), G ∉ post → ∀ st : Except PyErr (List (Option V)) × List (Option V), st.2.length = 10 →
      (post.foldl (gstep g o f) st).2[k]? = st.2[k]? := by
    intro post
    induction post with
    | nil => intros; rfl
    | cons P post ih =>
      intro hn st hl
      rw [List.foldl_cons, ih (fun h => hn (by simp [h])) _ (gstep_length g hz o f st P hl)]
      unfold gstep runGroup
      cases h1 : st.1 with
      | error e => rfl
      | ok acc =>
        simp only
        split
        · cases h2 : P.compute g o f with
          | error e => rfl
          | ok s =>
            have := hz _ _ _ _ h2
            simp only
            rw [putScores_get _ _ _ (by rw [this, hl]; cases P <;> decide), if_neg]
            intro hc
            rw [this] at hc
            exact hn (by rw [has_unique hk hc]; simp)
        · rfl
  intro pre
  induction pre with
  | nil =>
    intro post _ hn acc σ hl
    rw [List.nil_append, List.foldl_cons, later post hn _ (gstep_length g hz o f _ G hl)]
    have hs := hz _ _ _ _ hc
    unfold gstep runGroup
    simp only [hw, hc, if_true]
    rw [putScores_get _ _ _ (by rw [hs, hl]; cases G <;> decide), if_pos (by rw [hs]; exact hk)]
  | cons P pre ih =>
    intro post hp hn acc σ hl
    rw [List.cons_append, List.foldl_cons]
    have hlen := gstep_length g hz o f (.ok acc, σ) P hl
    have : ∃ acc' σ', gstep g o f (.ok acc, σ) P = (.ok acc', σ') := by
      unfold gstep runGroup
      simp only
      split
      · rename_i hw
        obtain ⟨s, hs⟩ := hp P (by simp) hw
        rw [hs]; exact ⟨_, _, rfl⟩
      · exact ⟨_, _, rfl⟩
    obtain ⟨acc', σ', e⟩ := this
    rw [e] at hlen ⊢
    exact ih post (fun G' h => hp G' (by simp [h])) hn acc' σ' hlen

/-- A slot whose group is not computed keeps its value. -/
theorem fold_keep (g : ScoreFns K V) (hz : Sized g) (o : ScoreOpts K) (f : K × K) (k : Nat) :
    ∀ (l : List Grp) (st : Except PyErr (List (Option V)) × List (Option V)), st.2.length = 10 →
      (∀ pre G post, l = pre ++ G :: post → Grp.has G k → G.wanted o = true →
        (∀ G' ∈ pre, G'.wanted o = true → ∃ s, G'.compute g o f = .ok s) → ¬ ∃ sc, G.compute g o f = .ok sc) →
      (l.foldl (gstep g o f) st).2[k]? = st.2[k]? := by
  intro l
  induction l with
  | nil => intros; rfl
  | cons P l ih =>
    intro st hl hno
    rw [List.foldl_cons]
    cases h1 : st.1 with
    | error e =>
      have : st = (.error e, st.2) := by rw [← h1]
      rw [this]
      have h2 : gstep g o f (.error e, st.2) P = (.error e, st.2) := rfl
      rw [h2, foldl_error]
    | ok acc =>
      by_cases hw : P.wanted o = true
      · cases h2 : P.compute g o f with
        | error e =>
          have : gstep g o f st P = (.error e, st.2) := by unfold gstep runGroup; rw [h1, hw, h2]; rfl
          rw [this, foldl_error]
        | ok sc =>
          have hs := hz _ _ _ _ h2
          have hnp : ¬ Grp.has P k := by
            intro hh
            exact hno [] P l rfl hh hw (by simp) ⟨sc, h2⟩
          have e : gstep g o f st P = (.ok (acc ++ sc), putScores P.first sc st.2) := by unfold gstep runGroup; rw [h1, hw, h2]; rfl
          have hput : (putScores P.first sc st.2)[k]? = st.2[k]? := by
            rw [putScores_get _ _ _ (by rw [hs, hl]; cases P <;> decide), if_neg (by rw [hs]; exact hnp)]
          have hlen := gstep_length g hz o f st P hl
          rw [e] at hlen ⊢
          rw [ih _ hlen, hput]
          intro pre G post hlG hk hwG hpre
          refine hno (P :: pre) G post (by rw [hlG]; rfl) hk hwG ?_
          intro G' hG' hw'
          rcases List.mem_cons.mp hG' with rfl | h
          · exact ⟨sc, h2⟩
          · exact hpre G' h hw'
      · have e : gstep g o f st P = st := by unfold gstep runGroup; rw [h1]; simp only [if_neg hw]
        rw [e]
        apply ih _ hl
        intro pre G post hlG hk hwG hpre
        refine hno (P :: pre) G post (by rw [hlG]; rfl) hk hwG ?_
        intro G' hG' hw'
        rcases List.mem_cons.mp hG' with rfl | h
        · exact absurd hw' hw
        · exact hpre G' h hw'

theorem calcScores_length (g : ScoreFns K V) (hz : Sized g) (x : Rec K) (o : ScoreOpts K) (σ : List (Option V)) (h : σ.length = 10) :
    (calcScores g x o σ).2.length = 10 := by
  cases hr : scoreRange x o.fmin o.fmax with
  | error e => unfold calcScores; rw [hr]; exact h
  | ok f =>
    rw [calcScores_fold g x o σ f hr]
    have : ∀ (l : List Grp) st, st.2.length = 10 → (l.foldl (gstep g o f) st).2.length = 10 := by
      intro l
      induction l with
      | nil => intro st h; exact h
      | cons P l ih => intro st h; exact ih _ (gstep_length g hz o f st P h)
    exact this _ _ h

theorem grp_split (G : Grp) : ∃ pre post, [Grp.arias, .rms, .spectra, .cross] = pre ++ G :: post ∧ G ∉ post ∧
    ∀ G' : Grp, G' ∈ pre ↔ G'.first < G.first := by
  cases G
  · exact ⟨[], [.rms, .spectra, .cross], rfl, by decide, by intro G'; cases G' <;> decide⟩
  · exact ⟨[.arias], [.spectra, .cross], rfl, by decide, by intro G'; cases G' <;> decide⟩
  · exact ⟨[.arias, .rms], [.cross], rfl, by decide, by intro G'; cases G' <;> decide⟩
  · exact ⟨[.arias, .rms, .spectra], [], rfl, by decide, by intro G'; cases G' <;> decide⟩

/-- C56. One call: the slots it computes hold the new values. -/
theorem C56_call {g : ScoreFns K V} (hz : Sized g) (x : Rec K) (o : ScoreOpts K) (σ : List (Option V)) (hl : σ.length = 10)
    (k : Nat) (v : Option V) (h : Fills g x o k v) : (calcScores g x o σ).2[k]? = some v := by
  obtain ⟨G, sc, j, ⟨f, hb, hw, hc, hpre⟩, rfl, hj⟩ := h
  rw [calcScores_fold g x o σ f (scoreRange_band.mpr hb)]
  obtain ⟨pre, post, e, hn, hm⟩ := grp_split G
  have hs := hz _ _ _ _ hc
  have hjl : j < sc.length := by
    by_contra hcn
    rw [List.getElem?_eq_none (by omega)] at hj; cases hj
  rw [e, fold_done g hz o f (G.first + j) G ⟨by omega, by omega⟩ sc hw hc pre post
    (fun G' h hw' => hpre G' ((hm G').mp h) hw') hn [] σ hl]
  rw [show G.first + j - G.first = j by omega]; exact hj

/-- C56. One call: every other slot keeps its value, whether the call returns or raises. -/
theorem C56_frame {g : ScoreFns K V} (hz : Sized g) (x : Rec K) (o : ScoreOpts K) (σ : List (Option V)) (hl : σ.length = 10)
    (k : Nat) (h : ∀ v, ¬ Fills g x o k v) : (calcScores g x o σ).2[k]? = σ[k]? := by
  cases hr : scoreRange x o.fmin o.fmax with
  | error e => unfold calcScores; rw [hr]
  | ok f =>
    rw [calcScores_fold g x o σ f hr]
    rw [fold_keep g hz o f k _ (.ok [], σ) hl]
    rintro pre G post e hk hw hpre ⟨sc, hc⟩
    have hs := hz _ _ _ _ hc
    obtain ⟨v, hv⟩ : ∃ v, sc[k - G.first]? = some v := by
      have : k - G.first < sc.length := by have := hk.1; have := hk.2; omega
      exact ⟨_, List.getElem?_eq_getElem this⟩
    refine h v ⟨G, sc, k - G.first, ⟨f, scoreRange_band.mp hr, hw, hc, ?_⟩, by have := hk.1; omega, hv⟩
    intro G' hG' hw'
    apply hpre G' _ hw'
    -- the earlier groups are exactly those before it
    obtain ⟨pre', post', e', hn, hm⟩ := grp_split G
    have : pre = pre' := by
      have hnodup : [Grp.arias, .rms, .spectra, .cross].Nodup := by decide
      have e2 := e.symm.trans e'
      have hnp : G ∉ pre := by
        rw [e] at hnodup
        have := List.nodup_append.mp hnodup
        intro hin
        exact this.2.2 G hin G (by simp) rfl
      have hnp' : G ∉ pre' := by
        rw [e'] at hnodup
        have := List.nodup_append.mp hnodup
        intro hin
        exact this.2.2 G hin G (by simp) rfl
      have h1 : (pre ++ G :: post).idxOf G = pre.length := by
        rw [List.idxOf_append_of_notMem hnp]; simp
      have h2 : (pre' ++ G :: post').idxOf G = pre'.length := by
        rw [List.idxOf_append_of_notMem hnp']; simp
      have hlen : pre.length = pre'.length := by rw [← h1, ← h2, e2]
      exact (List.append_inj e2 hlen).1
    rw [this]; exact (hm G').mpr hG'

/-- The stored scores after a history of calls. -/
def Spec.history (g : ScoreFns K V) (x : Rec K) (os : List (ScoreOpts K)) (σ : List (Option V)) : List (Option V) :=
  os.foldl (fun s o => (calcScores g x o s).2) σ

theorem history_length {g : ScoreFns K V} (hz : Sized g) (x : Rec K) : ∀ (os : List (ScoreOpts K)) (σ : List (Option V)), σ.length = 10 →
    (Spec.history g x os σ).length = 10 := by
  intro os
  induction os with
  | nil => intro σ h; exact h
  | cons o os ih => intro σ h; exact ih _ (calcScores_length g hz x o σ h)

theorem history_keep {g : ScoreFns K V} (hz : Sized g) (x : Rec K) (k : Nat) : ∀ (os : List (ScoreOpts K)) (σ : List (Option V)),
    σ.length = 10 → (∀ o ∈ os, ∀ v, ¬ Fills g x o k v) → (Spec.history g x os σ)[k]? = σ[k]? := by
  intro os
  induction os with
  | nil => intros; rfl
  | cons o os ih =>
    intro σ h hn
    have := ih (calcScores g x o σ).2 (calcScores_length g hz x o σ h) fun o' ho' => hn o' (by simp [ho'])
    rw [show Spec.history g x (o :: os) σ = Spec.history g x os (calcScores g x o σ).2 from rfl, this]
    exact C56_frame hz x o σ h k (hn o (by simp))

/-- C56. Over any history of calls on a new object, failed ones included, each of the ten slots holds the value
computed last, or NaN if it was never computed. -/
theorem C56_history {g : ScoreFns K V} (hz : Sized g) (x : Rec K) (os : List (ScoreOpts K)) (k : Nat) (hk : k < 10) :
    ((∀ o ∈ os, ∀ v, ¬ Fills g x o k v) → (Spec.history g x os scores0)[k]? = some none) ∧
    ∀ (os1 : List (ScoreOpts K)) o os2 v, os = os1 ++ o :: os2 → Fills g x o k v → (∀ o' ∈ os2, ∀ w, ¬ Fills g x o' k w) →
      (Spec.history g x os scores0)[k]? = some v := by
  have h0 : (scores0 : List (Option V)).length = 10 := by simp [scores0]
  constructor
  · intro hn
    rw [history_keep hz x k os _ h0 hn]
    unfold scores0
    rw [List.getElem?_replicate, if_pos hk]
  · rintro os1 o os2 v rfl hf hn
    have : Spec.history g x (os1 ++ o :: os2) scores0 =
        Spec.history g x os2 (calcScores g x o (Spec.history g x os1 scores0)).2 := by
      unfold Spec.history; rw [List.foldl_append]; rfl
    have hl := history_length hz x os1 _ h0
    rw [this, history_keep hz x k os2 _ (calcScores_length g hz x o _ hl) hn]
    exact C56_call hz x o _ hl k v hf

/-- Returned scores. -/
theorem fold_returned (g : ScoreFns K V) (o : ScoreOpts K) (f : K × K) :
    ∀ (l : List Grp) (acc σ : List (Option V)) (r : List (Option V)),
      (l.foldl (gstep g o f) (.ok acc, σ)).1 = .ok r ↔
      ∃ scs : List (List (Option V)), List.Forall₂ (fun G sc => G.compute g o f = .ok sc) (l.filter (·.wanted o)) scs ∧ r = acc ++ scs.flatten := by
  intro l
  induction l with
  | nil =>
    intro acc σ r
    simp only [List.foldl_nil, List.filter_nil, List.forall₂_nil_left_iff]
    constructor
    · intro h; cases h; exact ⟨[], rfl, by simp⟩
    · rintro ⟨scs, rfl, rfl⟩; simp
  | cons P l ih =>
    intro acc σ r
    rw [List.foldl_cons]
    by_cases hw : P.wanted o = true
    · rw [List.filter_cons_of_pos (by simpa using hw)]
      cases h2 : P.compute g o f with
      | error e =>
        have : gstep g o f (.ok acc, σ) P = (.error e, σ) := by unfold gstep runGroup; rw [hw, h2]; rfl
        rw [this, foldl_error]
        constructor
        · intro h; cases h
        · rintro ⟨scs, hf, _⟩
          cases hf with
          | cons h _ => rw [h2] at h; cases h
      | ok sc =>
        have : gstep g o f (.ok acc, σ) P = (.ok (acc ++ sc), putScores P.first sc σ) := by unfold gstep runGroup; rw [hw, h2]; rfl
        rw [this, ih]
        constructor
        · rintro ⟨scs, hf, rfl⟩
          exact ⟨sc :: scs, List.Forall₂.cons h2 hf, by simp⟩
        · rintro ⟨scs, hf, rfl⟩
          cases hf with
          | cons h hf =>
            rw [h2] at h
            cases h
            exact ⟨_, hf, by simp⟩
    · rw [List.filter_cons_of_neg (by simpa using hw)]
      have : gstep g o f (.ok acc, σ) P = (.ok acc, σ) := by unfold gstep runGroup; simp only [if_neg hw]
      rw [this, ih]

/-- C56. What is returned: the groups asked for, in the order d1..d10 and without gaps; the call returns exactly if the
frequency range is proper and each of the groups can be computed. -/
theorem C56_returned {g : ScoreFns K V} (x : Rec K) (o : ScoreOpts K) (σ r : List (Option V)) :
    (calcScores g x o σ).1 = .ok r ↔
    ∃ f, Band x o f ∧ ∃ scs : List (List (Option V)),
      List.Forall₂ (fun G sc => G.compute g o f = .ok sc) ([Grp.arias, .rms, .spectra, .cross].filter (·.wanted o)) scs ∧ r = scs.flatten := by
  cases hr : scoreRange x o.fmin o.fmax with
  | error e =>
    have : calcScores g x o σ = (.error e, σ) := by unfold calcScores; rw [hr]
    rw [this]
    constructor
    · intro h; cases h
    · rintro ⟨f, hb, _⟩; exact absurd hb (scoreRange_error hr f)
  | ok f =>
    rw [calcScores_fold g x o σ f hr, fold_returned]
    have hb := scoreRange_band.mp hr
    constructor
    · rintro ⟨scs, h1, h2⟩; exact ⟨f, hb, scs, h1, by simpa using h2⟩
    · rintro ⟨f', hb', scs, h1, h2⟩
      have : f' = f := by
        have := (scoreRange_band.mpr hb').symm.trans hr
        exact Except.ok.inj this
      subst this
      exact ⟨scs, h1, by simpa using h2⟩

/-- A swapped or empty frequency range is rejected and nothing is stored. -/
theorem C56_range {g : ScoreFns K V} (x : Rec K) (o : ScoreOpts K) (σ : List (Option V)) (lo hi : K) (h1 : o.fmin = some lo)
    (h2 : o.fmax = some hi) (hle : hi ≤ lo) : ∃ e, calcScores g x o σ = (.error e, σ) := by
  cases hr : scoreRange x o.fmin o.fmax with
  | error e => exact ⟨e, by unfold calcScores; rw [hr]⟩
  | ok f =>
    obtain ⟨t0, t1, _, _, _, e1, e2, hl⟩ := scoreRange_band.mp hr
    rw [h1] at e1; rw [h2] at e2
    simp only at e1 e2
    rw [e1, e2] at hl
    exact absurd hle (not_le.mpr hl)

/-- Printing: the average of the computed scores. -/
theorem C56_average [IsStrictOrderedRing K] (σ : List (Option K)) (r : K) (h : strAverage σ = .ok r) :
    (∃ v, some v ∈ σ) ∧ r * ((σ.filterMap id).length : K) = (σ.filterMap id).sum := by
  unfold strAverage at h
  simp only at h
  by_cases c : (σ.filterMap id).length = 0
  · rw [if_pos c] at h; cases h
  · rw [if_neg c] at h
    cases h
    constructor
    · obtain ⟨v, hv⟩ := List.exists_mem_of_length_pos (Nat.pos_of_ne_zero c)
      obtain ⟨a, ha, e⟩ := List.mem_filterMap.mp hv
      simp only [id] at e
      subst e
      exact ⟨v, ha⟩
    · exact div_mul_cancel₀ _ (by exact_mod_cast c)

/-- A new object cannot be printed. -/
theorem C56_print_violated : strAverage (scores0 : List (Option K)) = .error .zeroDivision := by
  unfold strAverage scores0
  rw [if_pos (by simp)]

/-! ## C97 -/

/-- A second call with the same options changes nothing. -/
theorem calcScores_idem {g : ScoreFns K V} (hz : Sized g) (x : Rec K) (o : ScoreOpts K) (σ : List (Option V)) (hl : σ.length = 10) :
    (calcScores g x o (calcScores g x o σ).2).2 = (calcScores g x o σ).2 := by
  have h2 := calcScores_length g hz x o σ hl
  apply List.ext_getElem?
  intro k
  by_cases c : ∃ v, Fills g x o k v
  · obtain ⟨v, hv⟩ := c
    rw [C56_call hz x o _ h2 k v hv, C56_call hz x o _ hl k v hv]
  · push Not at c
    rw [C56_frame hz x o _ h2 k c]

/-- Whether a call returns, and what, does not depend on the stored scores. -/
theorem calcScores_returned (g : ScoreFns K V) (x : Rec K) (o : ScoreOpts K) (σ σ' r : List (Option V)) :
    (calcScores g x o σ).1 = .ok r ↔ (calcScores g x o σ').1 = .ok r := by
  rw [C56_returned, C56_returned]

theorem calcScores_isOk (g : ScoreFns K V) (x : Rec K) (o : ScoreOpts K) (σ σ' : List (Option V)) (r : List (Option V))
    (h : (calcScores g x o σ).1 = .ok r) : (calcScores g x o σ').1 = .ok r := (calcScores_returned g x o σ σ' r).mp h

/-- What the serial run does to an object: it is updated if it occurs in the batch. -/
theorem batchSerial_inv (objs : List (ScoreObj K V)) (hz : ∀ b ∈ objs, Sized b.fns) (o : ScoreOpts K) :
    ∀ (refs : List Nat) (σ : List (List (Option V))), (∀ s ∈ σ, s.length = 10) →
      ∀ ids, (batchSerial objs o refs σ).1 = .ok ids →
      ids = refs ∧ (∀ i ∈ refs, ∃ (b : ScoreObj K V) (s : List (Option V)) (r : List (Option V)), objs[i]? = some b ∧ σ[i]? = some s ∧
        (calcScores b.fns b.meas o s).1 = .ok r ∧ (batchSerial objs o refs σ).2[i]? = some (calcScores b.fns b.meas o s).2) ∧
      ∀ (i : Nat), i ∉ refs → (batchSerial objs o refs σ).2[i]? = σ[i]? := by
  intro refs
  induction refs with
  | nil =>
    intro σ _ ids h
    rw [batchSerial] at h ⊢
    cases h
    exact ⟨rfl, by simp, fun _ _ => rfl⟩
  | cons i refs ih =>
    intro σ hσ ids h
    rw [batchSerial] at h
    cases hb : objs[i]? with
    | none => rw [hb] at h; cases h
    | some b =>
    cases hs : σ[i]? with
    | none => rw [hb, hs] at h; cases h
    | some s =>
    rw [hb, hs] at h
    simp only at h
    cases hc : (calcScores b.fns b.meas o s).1 with
    | error e => rw [hc] at h; cases h
    | ok r =>
    rw [hc] at h
    simp only at h
    have hzb := hz b (List.mem_of_getElem? hb)
    have hsl := hσ s (List.mem_of_getElem? hs)
    have hil : i < σ.length := (List.getElem?_eq_some_iff.mp hs).1
    set σ' := σ.set i (calcScores b.fns b.meas o s).2 with hσ'
    have hσ'l : ∀ s ∈ σ', s.length = 10 := by
      intro t ht
      rcases List.mem_or_eq_of_mem_set ht with h | rfl
      · exact hσ t h
      · exact calcScores_length _ hzb _ _ _ hsl
    have hset : σ'[i]? = some (calcScores b.fns b.meas o s).2 := by
      rw [hσ', List.getElem?_set_self hil]
    have hE : (batchSerial objs o (i :: refs) σ).2 = (batchSerial objs o refs σ').2 := by
      rw [batchSerial, hb, hs]
      simp only
      rw [hc]
    cases hrest : (batchSerial objs o refs σ').1 with
    | error e => rw [hrest] at h; cases h
    | ok ids' =>
    rw [hrest] at h
    cases h
    obtain ⟨rfl, h1, h2⟩ := ih σ' hσ'l ids' hrest
    refine ⟨rfl, ?_, ?_⟩
    · intro j hj
      rw [hE]
      by_cases cj : j = i
      · subst cj
        refine ⟨b, s, r, hb, hs, hc, ?_⟩
        by_cases cin : j ∈ ids'
        · obtain ⟨b', s', r', e1, e2, _, e4⟩ := h1 j cin
          rw [hb] at e1; cases e1
          rw [hset] at e2; cases e2
          rw [e4, calcScores_idem hzb _ _ _ hsl]
        · rw [h2 j cin, hset]
      · have hj' : j ∈ ids' := by
          rcases List.mem_cons.mp hj with h | h
          · exact absurd h cj
          · exact h
        obtain ⟨b', s', r', e1, e2, e3, e4⟩ := h1 j hj'
        rw [hσ', List.getElem?_set_ne (Ne.symm cj)] at e2
        exact ⟨b', s', r', e1, e2, e3, e4⟩
    · intro j hj
      rw [hE, h2 j (fun h => hj (by simp [h])), hσ', List.getElem?_set_ne]
      rintro rfl; exact hj (by simp)

/-- A serial run returns if every object of the batch can be scored. -/
theorem batchSerial_ok (objs : List (ScoreObj K V)) (o : ScoreOpts K) :
    ∀ (refs : List Nat) (σ : List (List (Option V))),
      (∀ i ∈ refs, ∃ (b : ScoreObj K V) (s r : List (Option V)), objs[i]? = some b ∧ σ[i]? = some s ∧ (calcScores b.fns b.meas o s).1 = .ok r) →
      (batchSerial objs o refs σ).1 = .ok refs := by
  intro refs
  induction refs with
  | nil => intro σ _; rfl
  | cons i refs ih =>
    intro σ h
    obtain ⟨b, s, r, hb, hs, hc⟩ := h i (by simp)
    rw [batchSerial, hb, hs]
    simp only
    rw [hc]
    simp only
    rw [ih]
    · rfl
    · intro j hj
      obtain ⟨b', s', r', hb', hs', hc'⟩ := h j (by simp [hj])
      by_cases cj : j = i
      · subst cj
        rw [hb] at hb'; cases hb'
        refine ⟨b, (calcScores b.fns b.meas o s).2, r', hb, ?_, calcScores_isOk _ _ _ _ _ _ hc'⟩
        rw [List.getElem?_set_self (List.getElem?_eq_some_iff.mp hs).1]
      · exact ⟨b', s', r', hb', by rw [List.getElem?_set_ne (Ne.symm cj)]; exact hs', hc'⟩

/-- One worker. -/
def worker (objs : List (ScoreObj K V)) (o : ScoreOpts K) (σ : List (List (Option V))) (i : Nat) : Except PyErr (List (Option V)) :=
  match objs[i]?, σ[i]? with
  | some b, some s =>
    let r := calcScores b.fns b.meas o s
    match r.1 with
    | .error e => .error e
    | .ok _ => .ok r.2
  | _, _ => .error .indexError

theorem worker_ok {objs : List (ScoreObj K V)} {o : ScoreOpts K} {σ : List (List (Option V))} {i : Nat} {t : List (Option V)} :
    worker objs o σ i = .ok t ↔ ∃ (b : ScoreObj K V) (s r : List (Option V)), objs[i]? = some b ∧ σ[i]? = some s ∧
      (calcScores b.fns b.meas o s).1 = .ok r ∧ t = (calcScores b.fns b.meas o s).2 := by
  unfold worker
  cases hb : objs[i]? with
  | none => simp
  | some b =>
    cases hs : σ[i]? with
    | none => simp
    | some s =>
      simp only [Option.some.injEq]
      cases hc : (calcScores b.fns b.meas o s).1 with
      | error e =>
        constructor
        · intro h; cases h
        · rintro ⟨_, _, r, rfl, rfl, h, _⟩; rw [hc] at h; cases h
      | ok r =>
        simp only
        constructor
        · intro h; cases h; exact ⟨b, s, r, rfl, rfl, hc, rfl⟩
        · rintro ⟨_, _, r', rfl, rfl, h, rfl⟩; rfl

theorem mapM_forall₂ {α β : Type} {f : α → Except PyErr β} : ∀ {l : List α} {ts : List β},
    l.mapM f = .ok ts ↔ List.Forall₂ (fun a t => f a = .ok t) l ts := by
  intro l
  induction l with
  | nil =>
    intro ts
    rw [List.forall₂_nil_left_iff]
    constructor
    · intro h; cases h; rfl
    · rintro rfl; rfl
  | cons a l ih =>
    intro ts
    rw [List.mapM_cons]
    simp only [bind, Except.bind]
    cases ha : f a with
    | error e =>
      constructor
      · intro h; cases h
      · intro h; cases h with
        | cons h _ => rw [ha] at h; cases h
    | ok b =>
      simp only
      cases hl : l.mapM f with
      | error e =>
        constructor
        · intro h; cases h
        · intro h; cases h with
          | cons _ h => rw [ih.mpr h] at hl; cases hl
      | ok bs =>
        constructor
        · intro h; cases h; exact List.Forall₂.cons ha (ih.mp hl)
        · intro h
          cases h with
          | cons h1 h2 =>
            rw [ha] at h1; cases h1
            rw [ih.mpr h2] at hl; cases hl
            rfl

/-- C97. The serial and the parallel run of a batch return the same scores, in the order of the batch and also if an
object occurs more than once; one of them returns exactly if the other does. -/
theorem C97_same (objs : List (ScoreObj K V)) (hz : ∀ b ∈ objs, Sized b.fns) (o : ScoreOpts K) (refs : List Nat)
    (σ : List (List (Option V))) (hσ : ∀ s ∈ σ, s.length = 10) (ts : List (List (Option V))) :
    (batchParallel objs o refs σ).1 = .ok ts ↔
    (batchSerial objs o refs σ).1 = .ok refs ∧ List.Forall₂ (fun i t => (batchSerial objs o refs σ).2[i]? = some t) refs ts := by
  have hpar : (batchParallel objs o refs σ).1 = refs.mapM (worker objs o σ) := by
    unfold batchParallel
    simp only
    congr 1
    funext i
    unfold worker
    cases objs[i]? <;> cases σ[i]? <;> rfl
  rw [hpar, mapM_forall₂]
  constructor
  · intro h
    have hall : ∀ i ∈ refs, ∃ t, worker objs o σ i = .ok t := by
      intro i hi
      clear hpar
      induction h with
      | nil => cases hi
      | cons h _ ih =>
        rcases List.mem_cons.mp hi with rfl | hi
        · exact ⟨_, h⟩
        · exact ih hi
    have hok : (batchSerial objs o refs σ).1 = .ok refs := by
      apply batchSerial_ok
      intro i hi
      obtain ⟨t, ht⟩ := hall i hi
      obtain ⟨b, s, r, h1, h2, h3, _⟩ := worker_ok.mp ht
      exact ⟨b, s, r, h1, h2, h3⟩
    refine ⟨hok, ?_⟩
    obtain ⟨_, hin, _⟩ := batchSerial_inv objs hz o refs σ hσ refs hok
    have hmem : ∀ i ∈ refs, ∀ t, worker objs o σ i = .ok t → (batchSerial objs o refs σ).2[i]? = some t := by
      intro i hi t ht
      obtain ⟨b, s, r, h1, h2, h3, rfl⟩ := worker_ok.mp ht
      obtain ⟨b', s', r', e1, e2, _, e4⟩ := hin i hi
      rw [h1] at e1; cases e1
      rw [h2] at e2; cases e2
      exact e4
    rw [List.forall₂_iff_get] at h ⊢
    refine ⟨h.1, ?_⟩
    intro k h1 h2
    exact hmem _ (List.get_mem _ _) _ (h.2 k h1 h2)
  · rintro ⟨hok, h⟩
    obtain ⟨_, hin, _⟩ := batchSerial_inv objs hz o refs σ hσ refs hok
    rw [List.forall₂_iff_get] at h ⊢
    refine ⟨h.1, ?_⟩
    intro k h1 h2
    obtain ⟨b, s, r, e1, e2, e3, e4⟩ := hin _ (List.get_mem refs ⟨k, h1⟩)
    have := h.2 k h1 h2
    rw [e4] at this
    exact worker_ok.mpr ⟨b, s, r, e1, e2, e3, (Option.some.inj this).symm⟩

/-- C97. A batch is made of a list with at least one element and of nothing else; it keeps the list, and a run of it, serial or parallel,
returns as many results as the batch says it has objects. -/
theorem C97_batch (objs : List (ScoreObj K V)) (o : ScoreOpts K) (x : Option (List Nat)) :
    (x = none → mkBatchGof x = .error .typeError) ∧ (x = some [] → mkBatchGof x = .error .valueError) ∧
    ∀ refs n, mkBatchGof x = .ok (refs, n) ↔ x = some refs ∧ refs ≠ [] ∧ n = refs.length ∧ 0 < n ∧
      (∀ σ ts, (batchParallel objs o refs σ).1 = .ok ts → ts.length = n) ∧ (∀ σ r, (batchSerial objs o refs σ).1 = .ok r → r.length = n) := by
  refine ⟨?_, ?_, ?_⟩
  · rintro rfl; rfl
  · rintro rfl; rfl
  intro refs n
  constructor
  · intro h
    unfold mkBatchGof at h
    cases x with
    | none => simp at h
    | some l =>
      simp only at h
      split_ifs at h with h0
      have := Except.ok.inj h
      obtain ⟨rfl, rfl⟩ := Prod.mk.inj this
      have hne : l ≠ [] := by rintro rfl; simp at h0
      refine ⟨rfl, hne, rfl, List.length_pos_iff.2 hne, ?_, ?_⟩
      · intro σ ts hts
        unfold batchParallel at hts
        simp only at hts
        rw [mapM_forall₂] at hts
        exact hts.length_eq.symm
      · intro σ r hr
        clear h h0 this hne
        induction l generalizing σ r with
        | nil => simp only [batchSerial] at hr; rw [← Except.ok.inj hr]
        | cons i l ih =>
          unfold batchSerial at hr
          split at hr
          · rename_i b s hb hs
            simp only at hr
            split at hr
            · simp at hr
            · simp only at hr
              cases hrest : (batchSerial objs o l (σ.set i (calcScores b.fns b.meas o s).2)).1 with
              | error e => rw [hrest] at hr; simp [Except.map] at hr
              | ok q =>
                rw [hrest] at hr
                rw [← Except.ok.inj hr, List.length_cons, List.length_cons, ih _ q hrest]
          · simp at hr
  · rintro ⟨rfl, hne, rfl, -⟩
    unfold mkBatchGof
    simp only
    rw [if_neg (by rw [List.length_eq_zero_iff]; exact hne)]

/-- C97. A serial run touches no object outside the batch. -/
theorem C97_others (objs : List (ScoreObj K V)) (hz : ∀ b ∈ objs, Sized b.fns) (o : ScoreOpts K) (refs : List Nat)
    (σ : List (List (Option V))) (hσ : ∀ s ∈ σ, s.length = 10) (h : ∃ ids, (batchSerial objs o refs σ).1 = .ok ids) (i : Nat)
    (hi : i ∉ refs) : (batchSerial objs o refs σ).2[i]? = σ[i]? := by
  obtain ⟨ids, h⟩ := h
  exact (batchSerial_inv objs hz o refs σ hσ ids h).2.2 i hi

/-- C97. The objects of the caller hold their scores only after a serial run: for any batch with a score that is new,
the objects differ after the two runs. -/
theorem C97_objects_violated (objs : List (ScoreObj K V)) (hz : ∀ b ∈ objs, Sized b.fns) (o : ScoreOpts K) (refs : List Nat)
    (σ : List (List (Option V))) (hσ : ∀ s ∈ σ, s.length = 10) (hok : (batchSerial objs o refs σ).1 = .ok refs)
    (i : Nat) (hi : i ∈ refs) (b : ScoreObj K V) (s : List (Option V)) (hb : objs[i]? = some b) (hs : σ[i]? = some s)
    (k : Nat) (v : V) (hv : Fills b.fns b.meas o k (some v)) (hnew : s[k]? = some none) :
    (batchParallel objs o refs σ).2[i]? ≠ (batchSerial objs o refs σ).2[i]? := by
  obtain ⟨_, hin, _⟩ := batchSerial_inv objs hz o refs σ hσ refs hok
  obtain ⟨b', s', r', e1, e2, _, e4⟩ := hin i hi
  rw [hb] at e1; cases e1
  rw [hs] at e2; cases e2
  rw [e4, show (batchParallel objs o refs σ).2 = σ from rfl, hs]
  intro h
  have := C56_call (hz b (List.mem_of_getElem? hb)) b.meas o s (hσ s (List.mem_of_getElem? hs)) k (some v) hv
  rw [← Option.some.inj h, hnew] at this
  cases this

/-! Concrete objects. -/

/-- Scores which can be computed except for the spectral group below 1 Hz. -/
def demoFns : ScoreFns ℚ ℚ where
  arias _ _ _ := .ok [some 1, some 2, some 3, some 4]
  rms lo _ _ := .ok [some lo, some 6, some 7]
  spectra lo _ _ := if lo < 1 then .error .indexError else .ok [some 8, some 9]
  cross _ hi _ := .ok [some hi]

theorem demoFns_sized : Sized demoFns := by
  intro o f G sc h
  cases G <;> simp only [Grp.compute, demoFns] at h
  · cases h; rfl
  · cases h; rfl
  · split at h
    · cases h
    · cases h; rfl
  · cases h; rfl

def demoCall (lo : ℚ) (c : Bool) : ScoreOpts ℚ := ⟨some lo, some 50, c, true, true, true, true⟩

/-- A call that succeeds and one that fails in the third group. -/
example : Spec.history demoFns [(0, 0), (1, 0)] [demoCall 2 false, demoCall (1/2) true] scores0 =
    [some 1, some 2, some 3, some 4, some (1/2), some 6, some 7, some 8, some 9, some 50] := by decide +kernel

example : (calcScores demoFns [(0, 0), (1, 0)] (demoCall 2 false) scores0).1 =
    .ok [some 2, some 6, some 7, some 8, some 9, some 50] := by decide +kernel

/-- The hypotheses of `C97_objects_violated` hold. -/
example : (batchSerial [⟨demoFns, [(0, 0), (1, 0)]⟩] (demoCall 2 true) [0, 0] [scores0]).1 = .ok [0, 0] ∧
    (batchSerial [⟨demoFns, [(0, 0), (1, 0)]⟩] (demoCall 2 true) [0, 0] [scores0]).2 ≠ [scores0] := by
  constructor <;> decide +kernel

end Verif
