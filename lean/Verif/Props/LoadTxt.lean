import Verif.Model.LoadTxt
import Verif.Props.NonFinite

/-!
C168: a text file is read like the array of its numbers.
-/

set_option linter.unusedSectionVars false
set_option linter.unusedVariables false

namespace Verif

namespace Spec

/-- The lines of a file with these rows of numbers. -/
def asLines {K : Type} (rows : List (List (Ext K))) : List (List (Option (Ext K))) := rows.map fun r => r.map some

/-- The rows of a profile. -/
def cellRows {K : Type} : Cell K → List (List (Ext K))
  | .two rows => rows.map fun p => [.fin p.1, .fin p.2]
  | .five rows => rows.map fun r => [.fin r.thk, .fin r.vs, .fin r.xi, .fin r.rho, .fin r.mat]

/-- The rows of a two-column record. -/
def recRows {K : Type} (y : Rec K) : List (List (Ext K)) := y.map fun p => [.fin p.1, .fin p.2]

end Spec

open Spec (asLines cellRows recRows FinElem RectBody ofRec ofCell UnitOk)

section
variable {K : Type}

theorem getD_some_map {α : Type} (d : α) (r : List α) : (r.map some).map (fun o => o.getD d) = r := by
  rw [List.map_map]
  exact List.map_id r

/-- A table of at least two rows and two columns comes out as it is in the file, after `skip` lines of whatever kind. -/
theorem C168_table (hs : List (List (Option (Ext K)))) (rows : List (List (Ext K))) (w : Nat) (hw : 2 ≤ w) (h2 : 2 ≤ rows.length)
    (hr : ∀ r ∈ rows, r.length = w) : genfromtxt hs.length (hs ++ asLines rows) = .ok (.arr (.mat w rows)) := by
  unfold genfromtxt
  rw [List.drop_left]
  match rows, h2 with
  | a :: b :: rest, _ =>
    have ha : a.length = w := hr a (by simp)
    have hall : ((asLines (b :: rest)).all fun q => decide (q.length = (a.map some).length)) = true := by
      rw [List.all_eq_true]
      intro q hq
      obtain ⟨r, hr', rfl⟩ := List.mem_map.1 hq
      simp only [List.length_map, decide_eq_true_eq]
      rw [hr r (List.mem_cons_of_mem _ hr'), ha]
    show (if ((asLines (b :: rest)).all fun q => decide (q.length = (a.map some).length)) = false then _ else _) = _
    rw [hall, if_neg (by simp)]
    match a, ha with
    | [], ha => simp at ha; omega
    | [x], ha => simp at ha; omega
    | x :: y :: t, ha =>
      show Except.ok (TxtArr.arr (XBody.mat ((x :: y :: t).map some).length
        ((asLines ((x :: y :: t) :: b :: rest)).map fun q => q.map fun o => o.getD .nan))) = _
      rw [List.length_map, ha]
      congr 3
      unfold asLines
      rw [List.map_map]
      calc _ = List.map id ((x :: y :: t) :: b :: rest) := List.map_congr_left fun r _ => getD_some_map _ r
        _ = _ := List.map_id _

/-- One column of at least two numbers comes out as a one-dimensional array. -/
theorem C168_column (hs : List (List (Option (Ext K)))) (l : List (Ext K)) (h2 : 2 ≤ l.length) :
    genfromtxt hs.length (hs ++ asLines (l.map fun x => [x])) = .ok (.arr (.vec l)) := by
  unfold genfromtxt
  rw [List.drop_left]
  match l, h2 with
  | a :: b :: rest, _ =>
    have hall : ((asLines ((b :: rest).map fun x => [x])).all fun q => decide (q.length = ([a].map some).length)) = true := by
      rw [List.all_eq_true]
      intro q hq
      obtain ⟨r, hr', rfl⟩ := List.mem_map.1 hq
      obtain ⟨x, _, rfl⟩ := List.mem_map.1 hr'
      simp
    show (if ((asLines ((b :: rest).map fun x => [x])).all fun q => decide (q.length = ([a].map some).length)) = false then _ else _) = _
    rw [hall, if_neg (by simp)]
    show Except.ok (TxtArr.arr (XBody.vec ((asLines ((a :: b :: rest).map fun x => [x])).flatten.map fun o => o.getD .nan))) = _
    congr 3
    unfold asLines
    rw [List.map_map]
    induction a :: b :: rest with
    | nil => rfl
    | cons c t ih => simp only [List.map_cons, Function.comp, List.map_nil, List.flatten_cons, List.map_append, ih]; rfl

/-- What comes out of a file is rectangular, and a field that is not a number leaves a NaN in it. -/
theorem genfromtxt_inv (skip : Nat) (lines : List (List (Option (Ext K)))) (a : TxtArr K) (h : genfromtxt skip lines = .ok a) :
    (∀ b, a = .arr b → RectBody b) ∧
    ((∃ l ∈ lines.drop skip, none ∈ l) → (∃ b, a = .arr b ∧ Ext.nan ∈ b.elems) ∨ a = .zero .nan) ∧
    (∀ c rows, a = .arr (.mat c rows) → 2 ≤ (lines.drop skip).length ∧ rows = (lines.drop skip).map fun q => q.map fun o => o.getD .nan) := by
  unfold genfromtxt at h
  generalize lines.drop skip = L at h ⊢
  match L, h with
  | [], h =>
    cases h
    exact ⟨fun b hb => (by cases hb; trivial), fun ⟨l, hl, _⟩ => absurd hl (by simp), fun c rows hc => by cases hc⟩
  | r :: rs, h =>
    dsimp only at h
    by_cases hall : (rs.all fun q => decide (q.length = r.length)) = false
    · rw [if_pos hall] at h; cases h
    rw [if_neg hall] at h
    have hrect : ∀ q ∈ rs, q.length = r.length := by
      intro q hq
      simp only [Bool.not_eq_false, List.all_eq_true, decide_eq_true_eq] at hall
      exact hall q hq
    have mem : ∀ {q : List (Option (Ext K))}, none ∈ q → Ext.nan ∈ q.map fun o => o.getD Ext.nan :=
      fun {q} hq => List.mem_map.2 ⟨none, hq, rfl⟩
    match rs, r, h with
    | [], [x], h =>
      cases h
      refine ⟨fun b hb => (by cases hb), fun ⟨l, hl, hn⟩ => .inr ?_, fun c rows hc => by cases hc⟩
      simp only [List.mem_cons, List.not_mem_nil, or_false] at hl
      subst hl
      simp only [List.mem_cons, List.not_mem_nil, or_false] at hn
      subst hn
      rfl
    | [], [], h =>
      cases h
      refine ⟨fun b hb => (by cases hb; trivial), fun ⟨l, hl, hn⟩ => ?_, fun c rows hc => by cases hc⟩
      simp only [List.mem_cons, List.not_mem_nil, or_false] at hl
      subst hl
      cases hn
    | [], x :: y :: t, h =>
      cases h
      refine ⟨fun b hb => (by cases hb; trivial), fun ⟨l, hl, hn⟩ => .inl ⟨_, rfl, ?_⟩, fun c rows hc => by cases hc⟩
      simp only [List.mem_cons, List.not_mem_nil, or_false] at hl
      subst hl
      exact mem hn
    | s :: ss, [x], h =>
      cases h
      refine ⟨fun b hb => (by cases hb; trivial), fun ⟨l, hl, hn⟩ => .inl ⟨_, rfl, ?_⟩, fun c rows hc => by cases hc⟩
      exact mem (List.mem_flatten.2 ⟨l, hl, hn⟩)
    | s :: ss, [], h =>
      cases h
      refine ⟨fun b hb => ?_, fun ⟨l, hl, hn⟩ => .inl ⟨_, rfl, ?_⟩, fun c rows hc => ?_⟩
      · cases hb
        intro q hq
        obtain ⟨q', hq', rfl⟩ := List.mem_map.1 hq
        rcases List.mem_cons.1 hq' with rfl | h
        · rfl
        · rw [List.length_map, hrect q' h]
      · exact List.mem_flatten.2 ⟨_, List.mem_map.2 ⟨l, hl, rfl⟩, mem hn⟩
      · cases hc
        exact ⟨by simp, rfl⟩
    | s :: ss, x :: y :: t, h =>
      cases h
      refine ⟨fun b hb => ?_, fun ⟨l, hl, hn⟩ => .inl ⟨_, rfl, ?_⟩, fun c rows hc => ?_⟩
      · cases hb
        intro q hq
        obtain ⟨q', hq', rfl⟩ := List.mem_map.1 hq
        rcases List.mem_cons.1 hq' with rfl | h
        · exact List.length_map _
        · rw [List.length_map, hrect q' h]
      · exact List.mem_flatten.2 ⟨_, List.mem_map.2 ⟨l, hl, rfl⟩, mem hn⟩
      · cases hc
        exact ⟨by simp, rfl⟩

end

section
variable {K : Type} [Field K] [LinearOrder K]

/-! ## Motions -/

/-- A motion from a file without header lines is the motion of the array of its two columns. -/
theorem C168_motion_partial (skip : Nat) (y : Rec K) (hy : 2 ≤ y.length) (u : MUnit) (t : MType) (delta : Option (Ext K)) :
    loadMotion skip (asLines (recRows y)) u t delta = (motionGate ⟨true, ofRec y⟩ u t delta).1 := by
  have := C168_table ([] : List (List (Option (Ext K)))) (recRows y) 2 le_rfl (by simpa [recRows] using hy) (by
    intro r hr
    obtain ⟨p, _, rfl⟩ := List.mem_map.1 hr
    rfl)
  unfold loadMotion
  rw [List.length_nil, List.nil_append] at this
  simp only [this, bind, Except.bind]
  rfl

/-- The same for one column. -/
theorem C168_motion_column (skip : Nat) (l : List (Ext K)) (h2 : 2 ≤ l.length) (u : MUnit) (t : MType) (delta : Option (Ext K)) :
    loadMotion skip (asLines (l.map fun x => [x])) u t delta = (motionGate ⟨true, .vec l⟩ u t delta).1 := by
  have := C168_column ([] : List (List (Option (Ext K)))) l h2
  unfold loadMotion
  rw [List.length_nil, List.nil_append] at this
  simp only [this, bind, Except.bind]

/-- A file with anything in it that is not a number makes no motion, also if the keyword arguments say that these lines are to
be skipped. -/
theorem C168_motion_rejects (skip : Nat) (lines : List (List (Option (Ext K)))) (h : ∃ l ∈ lines, none ∈ l) (u : MUnit) (t : MType)
    (delta : Option (Ext K)) : ∃ e, loadMotion skip lines u t delta = .error e := by
  unfold loadMotion
  cases hg : genfromtxt 0 lines with
  | error e => exact ⟨e, rfl⟩
  | ok a =>
    obtain ⟨h1, h2, -⟩ := genfromtxt_inv 0 lines a hg
    cases a with
    | zero x => exact ⟨_, rfl⟩
    | arr b =>
      rcases h2 (by simpa using h) with ⟨b', hb, hn⟩ | hc
      · cases hb
        exact C138_motion_rejects ⟨true, b⟩ (h1 b rfl) u t delta ⟨_, hn, fun ⟨x, hx⟩ => by cases hx⟩
      · cases hc

/-- C168 fails for motions with header lines: `Ground_Motion` takes keyword arguments for `genfromtxt` and does not hand them on.
Every file with header lines is rejected though `skip_header` is given, while the array of its numbers is accepted. -/
theorem C168_motion_header_violated (hs : List (List (Option (Ext K)))) (hn : ∃ l ∈ hs, none ∈ l) (y : Rec K) (hy : 2 ≤ y.length)
    (u : MUnit) (t : MType) (hu : UnitOk u t) (delta : Option (Ext K)) :
    (∃ e, loadMotion hs.length (hs ++ asLines (recRows y)) u t delta = .error e) ∧
    ∃ rows, (motionGate ⟨true, ofRec y⟩ u t delta).1 = .ok rows := by
  obtain ⟨l, hl, hn⟩ := hn
  exact ⟨C168_motion_rejects _ _ ⟨l, List.mem_append_left _ hl, hn⟩ u t delta, _, C138_motion_accepts y hy u t delta hu⟩

/-! ## Spectra and curves -/

/-- C168 fails for spectra and matrices of curves: a header line becomes a row of NaN, which nothing refuses. -/
theorem C168_nan_row_violated (rows : List (List (Ext K))) (hne : rows ≠ []) (w : Nat) (hr : ∀ r ∈ rows, r.length = w) :
    (w = 2 → ∀ delta, loadSpectrum (List.replicate w none :: asLines rows) delta = .ok (List.replicate w .nan :: rows)) ∧
    (2 ≤ w → w % 4 = 0 → loadMatrix (List.replicate w none :: asLines rows) = .ok (.arr ⟨true, .mat w (List.replicate w .nan :: rows)⟩)) := by
  have hg : 2 ≤ w → genfromtxt 0 (List.replicate w none :: asLines rows) = .ok (.arr (.mat w (List.replicate w .nan :: rows))) := by
    intro hw
    have key : ∀ (r : List (Ext K)) (rs : List (List (Ext K))), r :: rs = rows →
        genfromtxt 0 (List.replicate w none :: asLines (r :: rs)) = .ok (.arr (.mat w (List.replicate w .nan :: r :: rs))) := by
      intro r rs he
      subst he
      unfold genfromtxt
      rw [List.drop_zero]
      dsimp only
      have hall : ((asLines (r :: rs)).all fun q => decide (q.length = (List.replicate w (none : Option (Ext K))).length)) = true := by
        rw [List.all_eq_true]
        intro q hq
        obtain ⟨r', hr', rfl⟩ := List.mem_map.1 hq
        simp only [List.length_map, List.length_replicate, decide_eq_true_eq]
        exact hr r' hr'
      rw [hall, if_neg (by simp)]
      obtain ⟨v, rfl⟩ : ∃ v, w = v + 2 := ⟨w - 2, by omega⟩
      show Except.ok (TxtArr.arr (XBody.mat (List.replicate (v + 2) (none : Option (Ext K))).length
        ((List.replicate (v + 2) none :: asLines (r :: rs)).map fun q => q.map fun o => o.getD .nan))) = _
      rw [List.length_replicate, List.map_cons, List.map_replicate]
      congr 4
      unfold asLines
      rw [List.map_map]
      calc _ = List.map id (r :: rs) := List.map_congr_left fun r _ => getD_some_map _ r
        _ = _ := List.map_id _
    obtain ⟨r, rs, he⟩ := List.exists_cons_of_ne_nil hne
    rw [he]
    exact key r rs he.symm
  have hlen : 1 ≤ rows.length := List.length_pos_of_ne_nil hne
  constructor
  · rintro rfl delta
    unfold loadSpectrum
    simp only [hg le_rfl, bind, Except.bind, spectrumInit, readTwoExt, List.length_cons]
    rw [if_neg (by omega), if_pos trivial, if_neg (by omega)]
  · intro hw h4
    unfold loadMatrix
    simp only [hg hw, bind, Except.bind, matrixInit, assert2D]
    rw [if_neg (by omega)]

/-- A matrix of curves is accepted from a file exactly when the file is a table of two rows or more with the same number of columns, a positive multiple of four;
the matrix is then the table, with NaN for what is not a number.  (Blank lines do not count as lines.) -/
theorem C168_matrix_exact (lines : List (List (Option (Ext K)))) (hb : ∀ l ∈ lines, l ≠ []) (x : XArg K) :
    loadMatrix lines = .ok x ↔ ∃ w, 2 ≤ lines.length ∧ w % 4 = 0 ∧ (∀ l ∈ lines, l.length = w) ∧
      x = .arr ⟨true, .mat w (lines.map fun q => q.map fun o => o.getD .nan)⟩ := by
  have hall : ∀ (r : List (Option (Ext K))) (rs : List (List (Option (Ext K)))),
      (rs.all fun q => decide (q.length = r.length)) = true ↔ ∀ l ∈ r :: rs, l.length = r.length := by
    intro r rs
    simp
  unfold loadMatrix genfromtxt
  rw [List.drop_zero]
  match lines, hb with
  | [], _ => simp [bind, Except.bind, matrixInit, assert2D]
  | [[]], hb => exact absurd rfl (hb [] (by simp))
  | [[_]], _ => simp [bind, Except.bind]
  | [_ :: _ :: _], _ => simp [bind, Except.bind, matrixInit, assert2D]
  | [] :: _ :: _, hb => exact absurd rfl (hb [] (by simp))
  | [a] :: q :: rs, _ =>
    dsimp only
    by_cases c : ((q :: rs).all fun q => decide (q.length = [a].length)) = true
    · rw [c]
      simp only [Bool.true_eq_false, if_false, bind, Except.bind, matrixInit, assert2D]
      constructor
      · intro h; cases h
      · rintro ⟨w, _, h4, hw, _⟩
        have := hw [a] (by simp)
        simp only [List.length_singleton] at this
        omega
    · rw [Bool.not_eq_true] at c
      rw [c]
      simp only [if_true, bind, Except.bind]
      constructor
      · intro h; cases h
      · rintro ⟨w, _, h4, hw, _⟩
        have := hw [a] (by simp)
        simp only [List.length_singleton] at this
        omega
  | (a :: b :: r) :: q :: rs, _ =>
    dsimp only
    by_cases c : ((q :: rs).all fun q => decide (q.length = (a :: b :: r).length)) = true
    · have hw := (hall _ _).1 c
      rw [c]
      simp only [Bool.true_eq_false, if_false, bind, Except.bind, matrixInit, assert2D]
      constructor
      · intro h
        by_cases h4 : (a :: b :: r).length % 4 = 0
        · rw [if_neg (by simpa using h4), Except.ok.injEq] at h
          exact ⟨_, by simp, h4, hw, h.symm⟩
        · rw [if_pos h4] at h; cases h
      · rintro ⟨w, _, h4, hw', rfl⟩
        have e := hw' (a :: b :: r) (by simp)
        rw [e, if_neg (by simpa using h4)]
    · have hn : ¬ ∀ l ∈ (a :: b :: r) :: q :: rs, l.length = (a :: b :: r).length := fun h => c ((hall _ _).2 h)
      rw [Bool.not_eq_true] at c
      rw [c]
      simp only [if_true, bind, Except.bind]
      constructor
      · intro h; cases h
      · rintro ⟨w, _, _, hw, _⟩
        exact absurd (fun l hl => (hw l hl).trans (hw _ (by simp)).symm) hn

/-- A file with a single number is refused everywhere. -/
theorem C168_one_number [FloorRing K] (hs : List (List (Option (Ext K)))) (v : Option (Ext K)) (skip : Nat) (u : MUnit) (t : MType) (delta : Option (Ext K)) :
    loadMotion skip [[v]] u t delta = .error .indexError ∧ loadSpectrum [[v]] delta = .error .indexError ∧
    loadMatrix [[v]] = .error .typeError ∧ loadProfile hs.length (hs ++ [[v]]) = .error .valueError := by
  refine ⟨rfl, rfl, rfl, ?_⟩
  unfold loadProfile genfromtxt
  rw [List.drop_left]
  rfl

/-! ## Profiles -/

variable [FloorRing K]

/-- A profile of two or more layers is read from a file as from an array, after as many lines as `skip_header` says. -/
theorem C168_profile (hs : List (List (Option (Ext K)))) (c : Cell K) (h2 : 2 ≤ (cellRows c).length) :
    loadProfile hs.length (hs ++ asLines (cellRows c)) = (do checkVsFormat c; return ofCell c) := by
  have hg : genfromtxt hs.length (hs ++ asLines (cellRows c)) = .ok (.arr (ofCell c)) := by
    cases c with
    | two rows =>
      exact C168_table hs _ 2 le_rfl h2 (by
        intro r hr
        obtain ⟨p, _, rfl⟩ := List.mem_map.1 hr
        rfl)
    | five rows =>
      exact C168_table hs _ 5 (by norm_num) h2 (by
        intro r hr
        obtain ⟨p, _, rfl⟩ := List.mem_map.1 hr
        rfl)
  unfold loadProfile
  simp only [hg, bind, Except.bind, C138_profile_same]

/-- C168 for profiles, exactly: a file is accepted if and only if the lines after the skipped ones are two or more and are the
rows of an array that is accepted; the profile is that array. -/
theorem C168_profile_exact (skip : Nat) (lines : List (List (Option (Ext K)))) (b : XBody K) :
    loadProfile skip lines = .ok b ↔
      ∃ c : Cell K, b = ofCell c ∧ lines.drop skip = asLines (cellRows c) ∧ 2 ≤ (cellRows c).length ∧ checkVsFormat c = .ok () := by
  constructor
  · intro h
    unfold loadProfile at h
    cases hg : genfromtxt skip lines with
    | error e => rw [hg] at h; cases h
    | ok a =>
      rw [hg] at h
      obtain ⟨h1, h2, h3⟩ := genfromtxt_inv skip lines a hg
      cases a with
      | zero x => cases h
      | arr b' =>
        simp only [bind, Except.bind] at h
        cases hc : checkVsExt (.arr ⟨true, b'⟩) with
        | error e => rw [hc] at h; cases h
        | ok w =>
          rw [hc] at h
          cases h
          obtain ⟨c, hxc, hok⟩ := (C138_profile _ fun a ha => by cases ha; exact h1 b rfl).1 hc
          have hb : b = ofCell c := congrArg XArr.body (XArg.arr.inj hxc)
          have hno : ∀ l ∈ lines.drop skip, none ∉ l := by
            intro l hl hn
            rcases h2 ⟨l, hl, hn⟩ with ⟨b', hb', hm⟩ | hz
            · cases hb'
              rw [hb] at hm
              cases c with
              | two rows => simp [ofCell, ofRec, XBody.elems] at hm
              | five rows => simp [ofCell, XBody.elems] at hm
            · cases hz
          have hrows : ∀ (cc : Nat) rows, b = .mat cc rows → lines.drop skip = asLines rows ∧ 2 ≤ rows.length := by
            intro cc rows hbm
            obtain ⟨g1, g2⟩ := h3 cc rows (by rw [hbm])
            refine ⟨?_, by rw [g2, List.length_map]; exact g1⟩
            rw [g2]
            unfold asLines
            rw [List.map_map]
            conv_lhs => rw [← List.map_id (lines.drop skip)]
            refine List.map_congr_left fun l hl => ?_
            simp only [Function.comp, List.map_map, id]
            conv_lhs => rw [← List.map_id l]
            refine List.map_congr_left fun o ho => ?_
            cases o with
            | none => exact absurd ho (hno l hl)
            | some x => rfl
          refine ⟨c, hb, ?_, ?_, hok⟩
          · cases c with
            | two rows => exact (hrows 2 _ hb).1
            | five rows => exact (hrows 5 _ hb).1
          · cases c with
            | two rows => exact (hrows 2 _ hb).2
            | five rows => exact (hrows 5 _ hb).2
  · rintro ⟨c, rfl, hd, h2, hok⟩
    have hsplit : lines = lines.take skip ++ asLines (cellRows c) := by rw [← hd, List.take_append_drop]
    have hlen : (lines.take skip).length = skip := by
      rw [List.length_take, min_eq_left]
      by_contra hc
      have : lines.drop skip = [] := List.drop_eq_nil_of_le (by omega)
      rw [this] at hd
      have := congrArg List.length hd
      simp only [List.length_nil, asLines, List.length_map] at this
      omega
    have := C168_profile (lines.take skip) c h2
    rw [hlen, ← hsplit, hok] at this
    exact this

/-- C168 fails for a profile of one layer (a half-space): its array is accepted, the file of the same numbers is not, because
`genfromtxt` drops the dimension of length one. -/
theorem C168_one_layer_violated (v : K) (hv : 0 < v) (hs : List (List (Option (Ext K)))) (c : Cell K) (h1 : (cellRows c).length = 1) :
    (∀ b, loadProfile hs.length (hs ++ asLines (cellRows c)) ≠ .ok b) ∧ checkVsFormat (.two [((0 : K), v)]) = .ok () := by
  constructor
  · intro b hb
    obtain ⟨c', -, hd, h2, -⟩ := (C168_profile_exact _ _ _).1 hb
    rw [List.drop_left] at hd
    have := congrArg List.length hd
    simp only [asLines, List.length_map] at this
    omega
  · simp [checkVsFormat, checkThkVs, Cell.thk, Cell.vs, hv.not_ge, hv]

end

example : loadProfile 1 ([[none, none], [some (.fin 5), some (.fin 200)], [some (.fin 0), some (.fin 760)]] : List (List (Option (Ext ℚ)))) =
    .ok (.mat 2 [[.fin 5, .fin 200], [.fin 0, .fin 760]]) := by decide +kernel

example : loadMotion 1 ([[none, none], [some (.fin 0), some (.fin 1)], [some (.fin 1), some (.fin 2)]] : List (List (Option (Ext ℚ)))) .mpss
    .accel none = .error .valueError := by decide +kernel

end Verif
