import Verif.Model.Stamp
import Verif.Props.Nonlinear
import Mathlib.Data.List.Lex
import Mathlib.Tactic.IntervalCases

/-!
C180: default names made from the time.
-/

set_option linter.unusedSectionVars false
set_option linter.unusedVariables false

namespace Verif

/-- A count of seconds that puts points of time in order (months and days are given the same length). -/
def Spec.instant (t : Clock) : Nat :=
  ((((t.year * 12 + t.month) * 31 + t.day) * 24 + t.hour) * 60 + t.minute) * 60 + t.second

theorem digit_lt {a b : Nat} (ha : a < 10) (hb : b < 10) : Nat.digitChar a < Nat.digitChar b ↔ a < b := by
  interval_cases a <;> interval_cases b <;> decide

theorem digit_inj {a b : Nat} (ha : a < 10) (hb : b < 10) : Nat.digitChar a = Nat.digitChar b ↔ a = b := by
  interval_cases a <;> interval_cases b <;> decide

theorem pad2_lt {a b : Nat} (ha : a < 100) (hb : b < 100) (x y : List Char) : pad2 a ++ x < pad2 b ++ y ↔ a < b ∨ a = b ∧ x < y := by
  have h1 : a / 10 < 10 := by omega
  have h2 : b / 10 < 10 := by omega
  have h3 : a % 10 < 10 := by omega
  have h4 : b % 10 < 10 := by omega
  simp only [pad2, List.cons_append, List.nil_append, List.cons_lt_cons_iff, digit_lt h1 h2, digit_inj h1 h2, digit_lt h3 h4, digit_inj h3 h4]
  by_cases c : x < y
  · simp only [c, and_true]; omega
  · simp only [c, and_false, or_false]; omega

theorem pad2_inj {a b : Nat} (ha : a < 100) (hb : b < 100) (x y : List Char) : pad2 a ++ x = pad2 b ++ y ↔ a = b ∧ x = y := by
  have h1 : a / 10 < 10 := by omega
  have h2 : b / 10 < 10 := by omega
  have h3 : a % 10 < 10 := by omega
  have h4 : b % 10 < 10 := by omega
  simp only [pad2, List.cons_append, List.nil_append, List.cons.injEq, digit_inj h1 h2, digit_inj h3 h4]
  by_cases c : x = y
  · simp only [c, and_true]; omega
  · simp only [c, and_false]

theorem pad4_lt {a b : Nat} (ha : a < 10000) (hb : b < 10000) (x y : List Char) : pad4 a ++ x < pad4 b ++ y ↔ a < b ∨ a = b ∧ x < y := by
  simp only [pad4, List.append_assoc]
  rw [pad2_lt (by omega) (by omega), pad2_lt (by omega) (by omega)]
  by_cases c : x < y
  · simp only [c, and_true]; omega
  · simp only [c, and_false, or_false]; omega

theorem pad4_inj {a b : Nat} (ha : a < 10000) (hb : b < 10000) (x y : List Char) : pad4 a ++ x = pad4 b ++ y ↔ a = b ∧ x = y := by
  simp only [pad4, List.append_assoc]
  rw [pad2_inj (by omega) (by omega), pad2_inj (by omega) (by omega)]
  by_cases c : x = y
  · simp only [c, and_true]; omega
  · simp only [c, and_false]

theorem sep_lt (c : Char) (x y : List Char) : c :: x < c :: y ↔ x < y := by
  rw [List.cons_lt_cons_iff]
  simp

/-- C180: two stamps are equal exactly if the times agree to the second. -/
theorem C180_same (f : Bool) (t u : Clock) (ht : t.Valid) (hu : u.Valid) :
    timeStamp f t = timeStamp f u ↔ Spec.instant t = Spec.instant u := by
  obtain ⟨t1, t2, t3, t4, t5, t6, t7, t8, t9, t10⟩ := ht
  obtain ⟨u1, u2, u3, u4, u5, u6, u7, u8, u9, u10⟩ := hu
  have e : ∀ a b : Nat, a < 100 → b < 100 → (pad2 a = pad2 b ↔ a = b) := by
    intro a b ha hb
    have := pad2_inj ha hb [] []
    simpa using this
  unfold timeStamp Spec.instant
  simp only
  rw [pad4_inj (by omega) (by omega), List.cons.injEq, pad2_inj (by omega) (by omega), List.cons.injEq, pad2_inj (by omega) (by omega),
    List.cons.injEq, pad2_inj (by omega) (by omega), List.cons.injEq, pad2_inj (by omega) (by omega), List.cons.injEq,
    e _ _ (by omega) (by omega)]
  simp only [true_and]
  omega

/-- C180: default names sort by time. -/
theorem C180_sorted (f : Bool) (t u : Clock) (ht : t.Valid) (hu : u.Valid) :
    timeStamp f t < timeStamp f u ↔ Spec.instant t < Spec.instant u := by
  obtain ⟨t1, t2, t3, t4, t5, t6, t7, t8, t9, t10⟩ := ht
  obtain ⟨u1, u2, u3, u4, u5, u6, u7, u8, u9, u10⟩ := hu
  have e : ∀ a b : Nat, a < 100 → b < 100 → (pad2 a < pad2 b ↔ a < b) := by
    intro a b ha hb
    have := pad2_lt ha hb [] []
    simpa using this
  unfold timeStamp Spec.instant
  simp only
  rw [pad4_lt (by omega) (by omega), sep_lt, pad2_lt (by omega) (by omega), sep_lt, pad2_lt (by omega) (by omega), sep_lt,
    pad2_lt (by omega) (by omega), sep_lt, pad2_lt (by omega) (by omega), sep_lt, e _ _ (by omega) (by omega)]
  omega

theorem digit_char {a : Nat} (ha : a < 10) : (Nat.digitChar a).isDigit = true := by
  interval_cases a <;> decide

/-- C180: stamps for file names have 19 characters, digits, dashes and an underscore, so they are valid in file names everywhere. -/
theorem C180_characters (t : Clock) (ht : t.Valid) :
    (timeStamp true t).length = 19 ∧ ∀ c ∈ timeStamp true t, c.isDigit = true ∨ c = '-' ∨ c = '_' := by
  obtain ⟨t1, t2, t3, t4, t5, t6, t7, t8, t9, t10⟩ := ht
  constructor
  · rfl
  · intro c hc
    have p : ∀ n, n < 100 → ∀ c ∈ pad2 n, c.isDigit = true := by
      intro n hn c hc
      simp only [pad2, List.mem_cons, List.not_mem_nil, or_false] at hc
      rcases hc with rfl | rfl
      · exact digit_char (by omega)
      · exact digit_char (by omega)
    simp only [timeStamp, pad4, if_true, List.mem_append, List.mem_cons] at hc
    rcases hc with (hc | hc) | hc | hc | hc | hc | hc | hc | hc | hc | hc | hc
    · exact .inl (p _ (by omega) c hc)
    · exact .inl (p _ (by omega) c hc)
    · exact .inr (.inl hc)
    · exact .inl (p _ (by omega) c hc)
    · exact .inr (.inl hc)
    · exact .inl (p _ (by omega) c hc)
    · exact .inr (.inr hc)
    · exact .inl (p _ (by omega) c hc)
    · exact .inr (.inl hc)
    · exact .inl (p _ (by omega) c hc)
    · exact .inr (.inl hc)
    · exact .inl (p _ (by omega) c hc)

/-- C180: batches and calibrations at different seconds have different default names; C180 fails for those within the same second, which share
them (`C180_overwritten_violated` shows what becomes of the files). -/
theorem C180_names_exact (t u : Clock) (ht : t.Valid) (hu : u.Valid) :
    (batchDirDefault t = batchDirDefault u ↔ Spec.instant t = Spec.instant u) ∧
    (hhgFileDefault t = hhgFileDefault u ↔ Spec.instant t = Spec.instant u) := by
  unfold batchDirDefault hhgFileDefault
  constructor
  · rw [List.append_cancel_left_eq, C180_same true t u ht hu]
  · rw [List.append_cancel_right_eq, List.append_cancel_left_eq, C180_same true t u ht hu]

variable {C : Type}

theorem keeps_linear_cwd {D : Path} (mk : String → C) (time : String) (ev a b c d : Bool) (name : Option String) (od : Option Path) :
    (linearFiles mk time ev a b c d name od).Keeps fun s => s.cwd = D := by
  unfold linearFiles
  refine Op.Keeps.bind (fun s hs => hs) fun cwd => ?_
  simp only
  refine Op.Keeps.bind ?_ fun _ => Op.Keeps.bind ?_ fun _ => fun s hs => hs
  · unfold opWhen
    split
    · exact keeps_plots_cwd _ _ _ _
    · exact fun s hs => hs
  · unfold opWhen
    split
    · exact keeps_txt_cwd _ _ _ _
    · exact fun s hs => hs

/-- C180: the result files that a linear simulation has saved under its default names are still there, with their contents, after another
simulation that saves its results at another second.  Missing: two simulations within one second (`C180_overwritten_violated`). -/
theorem C180_kept_partial (mk mk' : String → C) (hmk : ∀ a b, mk a = mk b → a = b) (t u : Clock) (ht : t.Valid) (hu : u.Valid)
    (htu : Spec.instant t ≠ Spec.instant u) (sf sg full sf' sg' full' : Bool) (s s1 s2 : St C) (o o' : ResObj)
    (h1 : linearFilesAt mk t false sf sg true full none none s = (.ok o, s1))
    (h2 : linearFilesAt mk' u false sf' sg' true full' none none s1 = (.ok o', s2)) (e : String)
    (he : e = "_accel_on_surface.txt" ∨ e = "_re-discretized_profile.txt" ∨ e = "_nonlinear_TF_raw.txt") :
    o.outDir ≠ o'.outDir ∧ fsGet s2.fs (o.outDir ++ [o.name ++ e]) = some (.file (mk e)) := by
  unfold linearFilesAt at h1 h2
  obtain ⟨a1, a2, _⟩ := C63_linear_violated _ _ _ _ _ _ _ _ _ _ _ h1
  obtain ⟨b1, b2, b3⟩ := C63_linear_violated _ _ _ _ _ _ _ _ _ _ _ h2
  obtain ⟨w1, w2, w3, _⟩ := C63_written mk hmk _ _ _ _ _ _ _ _ _ _ (.inl h1)
  have hc : s1.cwd = s.cwd := by
    have := keeps_linear_cwd (D := s.cwd) mk (String.ofList (timeStamp true t)) false sf sg true full none none s rfl
    rw [h1] at this
    exact this
  have hne : "sim_" ++ String.ofList (timeStamp true t) ≠ "sim_" ++ String.ofList (timeStamp true u) := by
    intro hq
    have := congrArg String.toList hq
    rw [String.toList_append, String.toList_append, List.append_cancel_left_eq] at this
    simp only [String.toList_ofList] at this
    exact htu ((C180_same true t u ht hu).mp this)
  constructor
  · rw [a1, b1, hc]
    intro hq
    exact hne (by simpa using hq)
  · have hout : ¬ (s1.cwd ++ ["sim_" ++ String.ofList (timeStamp true u)]) <+: (o.outDir ++ [o.name ++ e]) := by
      rw [a1, hc, List.append_assoc]
      rw [List.prefix_append_right_inj]
      intro hq
      have := hq.getElem (i := 0) (by simp)
      simp at this
      exact hne (by rw [this])
    refine b3.1 _ _ hout ?_
    rcases he with rfl | rfl | rfl
    · exact w1
    · exact w2
    · exact w3

/-- C180 fails: two linear simulations that save their results within the same second use the same directory and the same names, without any
warning, and the files of the first are overwritten. -/
theorem C180_overwritten_violated (mk mk' : String → C) (hmk' : ∀ a b, mk' a = mk' b → a = b) (t u : Clock) (ht : t.Valid) (hu : u.Valid)
    (htu : Spec.instant t = Spec.instant u) (sf sg full sf' sg' full' : Bool) (s s1 s2 : St C) (o o' : ResObj)
    (h1 : linearFilesAt mk t false sf sg true full none none s = (.ok o, s1))
    (h2 : linearFilesAt mk' u false sf' sg' true full' none none s1 = (.ok o', s2)) (e : String)
    (he : e = "_accel_on_surface.txt" ∨ e = "_re-discretized_profile.txt" ∨ e = "_nonlinear_TF_raw.txt") :
    o.outDir = o'.outDir ∧ o.name = o'.name ∧ fsGet s2.fs (o.outDir ++ [o.name ++ e]) = some (.file (mk' e)) := by
  unfold linearFilesAt at h1 h2
  obtain ⟨a1, a2, _⟩ := C63_linear_violated _ _ _ _ _ _ _ _ _ _ _ h1
  obtain ⟨b1, b2, b3⟩ := C63_linear_violated _ _ _ _ _ _ _ _ _ _ _ h2
  obtain ⟨w1, w2, w3, _⟩ := C63_written mk' hmk' _ _ _ _ _ _ _ _ _ _ (.inl h2)
  have hc : s1.cwd = s.cwd := by
    have := keeps_linear_cwd (D := s.cwd) mk (String.ofList (timeStamp true t)) false sf sg true full none none s rfl
    rw [h1] at this
    exact this
  have hst := (C180_same true t u ht hu).mpr htu
  have ed : o.outDir = o'.outDir := by rw [a1, b1, hc, hst]
  have en : o.name = o'.name := by rw [a2, b2, hst]
  refine ⟨ed, en, ?_⟩
  rw [ed, en]
  rcases he with rfl | rfl | rfl
  · exact w1
  · exact w2
  · exact w3

example : timeStamp true ⟨2001, 1, 1, 23, 59, 59, 0⟩ = "2001-01-01_23-59-59".toList := by decide +kernel
example : timeStamp false ⟨2001, 1, 1, 23, 59, 59, 0⟩ = "2001-01-01 23:59:59".toList := by decide +kernel
example : (linearFilesAt (fun e => (1, e)) ⟨2001, 1, 1, 23, 59, 59, 0⟩ false false false true false none none ⟨[], []⟩).2.fs.length = 4 := by
  decide +kernel

end Verif
