import Verif.Model.ResultFiles
import Verif.Proof.FileSys

/-!
C63: result files go to the requested directory.
-/

set_option linter.unusedSectionVars false
set_option linter.unusedVariables false

namespace Verif

variable {C : Type}

open Spec (WfFs SameOutside)

theorem keeps_ensure (D : Path) (fs0 : FS C) : (ensureDir D : Op C Unit).Keeps fun s => SameOutside D fs0 s.fs := by
  unfold ensureDir
  refine Op.Keeps.bind (keeps_exists D) fun e => ?_
  cases e with
  | true => exact fun s hs => hs
  | false => exact keeps_makedirs

theorem ensure_ok {D : Path} {s s' : St C} (h : ensureDir D s = (.ok (), s')) :
    fsGet s'.fs D ≠ none ∧ s'.cwd = s.cwd ∧ ∀ p n, fsGet s.fs p = some n → fsGet s'.fs p = some n := by
  unfold ensureDir at h
  obtain ⟨e, s1, h1, h2⟩ := bind_opok h
  cases h1
  cases hg : (fsGet s.fs D).isSome with
  | true =>
    rw [hg] at h2
    cases h2
    exact ⟨fun c => (by rw [c] at hg; cases hg), rfl, fun _ _ h => h⟩
  | false =>
    rw [hg] at h2
    obtain ⟨a, b, c, d, _⟩ := makedirs_ok h2
    refine ⟨by rw [c]; simp, b, ?_⟩
    intro p n hp
    by_cases hD : D <+: p
    · by_cases e : p = D
      · rw [e, a] at hp; cases hp
      · rw [(makedirs_ok h2).2.2.2.2.1 p hD e]; exact hp
    · exact d.1 p n hD hp

theorem prefix_child (D : Path) (n : String) : D <+: D ++ [n] := List.prefix_append _ _

theorem write_ok {p : Path} {c : C} {s s' : St C} (h : opWrite p c s = (.ok (), s')) :
    s' = { s with fs := fsPut s.fs p (.file c) } ∧ fsGet s.fs p.dropLast = some .dir ∧ fsGet s.fs p ≠ some .dir := by
  unfold opWrite at h
  split at h
  · split at h
    · cases h
    · rename_i h2
      cases h
      exact ⟨rfl, by assumption, h2⟩
  · cases h

/-- All files of a list of writes into one directory are there afterwards. -/
theorem writes_there {α : Type} (D : Path) (nm : α → String) (ct : α → C) (hinj : ∀ a b, nm a = nm b → ct a = ct b) (l : List α) :
    ∀ s s', opForEach (fun a => opWrite (D ++ [nm a]) (ct a)) l s = (.ok (), s') →
      s'.cwd = s.cwd ∧ (∀ a ∈ l, fsGet s'.fs (D ++ [nm a]) = some (.file (ct a))) ∧
      (∀ p, (∀ a ∈ l, p ≠ D ++ [nm a]) → fsGet s'.fs p = fsGet s.fs p) ∧ (l ≠ [] → fsGet s.fs D = some .dir) := by
  induction l with
  | nil => intro s s' h; cases h; exact ⟨rfl, fun a ha => absurd ha (by simp), fun _ _ => rfl, fun h => absurd rfl h⟩
  | cons x l ih =>
    intro s s' h
    obtain ⟨u, s1, h1, h2⟩ := andThen_ok h
    obtain ⟨e1, e2, e3⟩ := write_ok h1
    obtain ⟨i1, i2, i3, _⟩ := ih s1 s' h2
    have hcwd : s1.cwd = s.cwd := by rw [e1]
    have hput : s1.fs = fsPut s.fs (D ++ [nm x]) (.file (ct x)) := by rw [e1]
    refine ⟨by rw [i1, hcwd], ?_, ?_, fun _ => by simpa using e2⟩
    · intro a ha
      rcases List.mem_cons.mp ha with rfl | ha
      · by_cases hx : ∃ b ∈ l, nm b = nm a
        · obtain ⟨b, hb, hn⟩ := hx
          have := i2 b hb
          rw [hn, hinj b a hn] at this
          exact this
        · rw [i3 _ (by
            intro b hb hc
            have := List.append_cancel_left hc
            simp only [List.cons.injEq, and_true] at this
            exact hx ⟨b, hb, this.symm⟩), hput]
          exact fsGet_put_self _ _ _ (by simp)
      · exact i2 a ha
    · intro p hp
      rw [i3 p (fun a ha => hp a (List.mem_cons_of_mem _ ha)), hput,
        fsGet_put_ne _ _ _ _ (Ne.symm (hp x List.mem_cons_self))]

/-! ## to_txt -/

/-- **C63** (text files): whatever happens, `to_txt` changes nothing outside of the requested directory (the
argument, or else the directory of the object) except for making the directories that lead to it. -/
theorem C63_txt_place (mk : String → C) (o : ResObj) (full : Bool) (outDir : Option Path) (s : St C) :
    SameOutside (outDir.getD o.outDir) s.fs (toTxt mk o full outDir s).2.fs := by
  have : (toTxt mk o full outDir).Keeps fun s' => SameOutside (outDir.getD o.outDir) s.fs s'.fs := by
    unfold toTxt
    refine Op.Keeps.bind (keeps_ensure _ _) fun _ => ?_
    exact keeps_forEach _ fun e _ => keeps_write _ _ (prefix_child _ _)
  exact this s (SameOutside.refl _ _)

/-- **C63** (text files): if `to_txt` returns, the surface motion and the profile, the maxima, the requested time
histories and the transfer functions are there, each in its own file. -/
theorem C63_txt_files (mk : String → C) (hmk : ∀ a b, mk a = mk b → a = b) (o : ResObj) (full : Bool) (outDir : Option Path) (s s' : St C)
    (h : toTxt mk o full outDir s = (.ok (), s')) :
    let f := fun e => fsGet s'.fs (outDir.getD o.outDir ++ [o.name ++ e]) = some (.file (mk e))
    f "_accel_on_surface.txt" ∧ f "_re-discretized_profile.txt" ∧
    (o.hasMax = true → f "_max_a_v_d.txt" ∧ f "_max_gamma_tau.txt") ∧
    (full = true → (o.hasA = true → f "_time_history_accel.txt") ∧ (o.hasV = true → f "_time_history_veloc.txt") ∧
      (o.hasD = true → f "_time_history_displ.txt") ∧ (o.hasGamma = true → f "_time_history_strain.txt") ∧
      (o.hasTau = true → f "_time_history_stress.txt")) ∧
    (o.hasTf = true → f "_nonlinear_TF_raw.txt") ∧ (o.hasTfs = true → f "_nonlinear_TF_smoothed.txt") := by
  unfold toTxt at h
  obtain ⟨u, s1, h1, h2⟩ := bind_opok h
  have hin : ∀ a b : String, o.name ++ a = o.name ++ b → mk a = mk b := by
    intro a b hab
    rw [String.append_right_inj] at hab
    rw [hab]
  obtain ⟨_, h3, _⟩ := writes_there (outDir.getD o.outDir) (fun e => o.name ++ e) mk hin (txtEndings o full) s1 s' h2
  intro f
  have hf : ∀ e ∈ txtEndings o full, f e := h3
  refine ⟨hf _ ?_, hf _ ?_, fun c => ⟨hf _ ?_, hf _ ?_⟩, fun c0 => ⟨fun c => hf _ ?_, fun c => hf _ ?_, fun c => hf _ ?_,
    fun c => hf _ ?_, fun c => hf _ ?_⟩, fun c => hf _ ?_, fun c => hf _ ?_⟩
  all_goals simp [txtEndings, *]

/-- **C63** (text files): `to_txt` writes into an existing directory without error unless one of its files exists
as a directory. -/
theorem C63_txt_succeeds (mk : String → C) (o : ResObj) (full : Bool) (outDir : Option Path) (s : St C)
    (hd : fsGet s.fs (outDir.getD o.outDir) = some .dir)
    (hno : ∀ n, fsGet s.fs (outDir.getD o.outDir ++ [n]) ≠ some .dir) :
    ∃ s', toTxt mk o full outDir s = (.ok (), s') := by
  unfold toTxt
  have h1 : ensureDir (outDir.getD o.outDir) s = (.ok (), s) := by
    unfold ensureDir
    rw [bind_run (s1 := s) (a := true) (by unfold opExists; rw [hd]; rfl)]
    rfl
  rw [bind_run h1]
  have key : ∀ (l : List String) (s : St C), fsGet s.fs (outDir.getD o.outDir) = some .dir →
      (∀ n, fsGet s.fs (outDir.getD o.outDir ++ [n]) ≠ some .dir) →
      ∃ s', opForEach (fun e => opWrite (outDir.getD o.outDir ++ [o.name ++ e]) (mk e)) l s = (.ok (), s') := by
    intro l
    induction l with
    | nil => intro s _ _; exact ⟨s, rfl⟩
    | cons a l ih =>
      intro s hd hno
      have hw : opWrite (outDir.getD o.outDir ++ [o.name ++ a]) (mk a) s =
          (.ok (), { s with fs := fsPut s.fs (outDir.getD o.outDir ++ [o.name ++ a]) (.file (mk a)) }) := by
        unfold opWrite
        rw [List.dropLast_concat, hd]
        simp only
        split
        · rename_i hc; exact absurd hc (hno _)
        · rfl
      have := ih { s with fs := fsPut s.fs (outDir.getD o.outDir ++ [o.name ++ a]) (.file (mk a)) }
        (by rw [fsGet_put_ne _ _ _ _ (by
              intro e
              have := congrArg List.length e
              simp at this)]
            exact hd)
        (by
          intro n
          by_cases e : outDir.getD o.outDir ++ [o.name ++ a] = outDir.getD o.outDir ++ [n]
          · rw [← e, fsGet_put_self _ _ _ (by simp)]
            simp
          · rw [fsGet_put_ne _ _ _ _ e]
            exact hno n)
      obtain ⟨s', hs'⟩ := this
      refine ⟨s', ?_⟩
      exact (bind_run hw).trans hs'
  exact key _ s hd hno

/-! ## plot -/

/-- **C63** (figures, partial): without an `output_dir` argument `plot` changes nothing outside of the directory of
the object, and if it returns both figures are there. -/
theorem C63_plot_partial (mk : String → C) (o : ResObj) (s : St C) :
    SameOutside o.outDir s.fs (savePlots mk o true none s).2.fs ∧
    ∀ s', savePlots mk o true none s = (.ok (), s') →
      fsGet s'.fs (o.outDir ++ [o.name ++ "_ground_motions.png"]) = some (.file (mk "_ground_motions.png")) ∧
      (o.hasMax = true → fsGet s'.fs (o.outDir ++ [o.name ++ "_max_profiles.png"]) = some (.file (mk "_max_profiles.png"))) := by
  have hne : o.outDir ++ [o.name ++ "_max_profiles.png"] ≠ o.outDir ++ [o.name ++ "_ground_motions.png"] := by
    intro e
    have := List.append_cancel_left e
    simp only [List.cons.injEq, and_true, String.append_right_inj] at this
    exact absurd this (by decide)
  constructor
  · have : (savePlots mk o true none).Keeps fun s' => SameOutside o.outDir s.fs s'.fs := by
      unfold savePlots
      refine Op.Keeps.bind (keeps_ensure _ _) fun _ => Op.Keeps.bind (keeps_write _ _ (prefix_child _ _)) fun _ => ?_
      cases o.hasMax with
      | true => exact keeps_write _ _ (prefix_child _ _)
      | false => exact fun s hs => hs
    exact this s (SameOutside.refl _ _)
  · intro s' h
    unfold savePlots at h
    rw [if_pos rfl] at h
    obtain ⟨u, s1, h1, h2⟩ := bind_opok h
    obtain ⟨u2, s2, h3, h4⟩ := bind_opok h2
    obtain ⟨e1, _, _⟩ := write_ok h3
    have hg : fsGet s2.fs (o.outDir ++ [o.name ++ "_ground_motions.png"]) = some (.file (mk "_ground_motions.png")) := by
      rw [e1]; exact fsGet_put_self _ _ _ (by simp)
    cases hm : o.hasMax with
    | false =>
      rw [hm] at h4
      cases h4
      exact ⟨hg, fun h => by cases h⟩
    | true =>
      rw [hm] at h4
      obtain ⟨e2, _, _⟩ := write_ok h4
      refine ⟨?_, fun _ => ?_⟩
      · rw [e2, fsGet_put_ne _ _ _ _ hne]; exact hg
      · rw [e2]; exact fsGet_put_self _ _ _ (by simp)

/-- **C63 is violated** by `plot` with an `output_dir` argument: the second figure goes to the directory of the
object; if that does not exist, the call fails. -/
theorem C63_plot_violated (mk : String → C) (o : ResObj) (od : Path) (s : St C) (hm : o.hasMax = true)
    (hdir : ¬ od <+: o.outDir) :
    (∀ s', savePlots mk o true (some od) s = (.ok (), s') →
      fsGet s'.fs (o.outDir ++ [o.name ++ "_max_profiles.png"]) = some (.file (mk "_max_profiles.png")) ∧
      fsGet s'.fs (od ++ [o.name ++ "_max_profiles.png"]) = fsGet s.fs (od ++ [o.name ++ "_max_profiles.png"])) ∧
    (fsGet s.fs o.outDir = none → ¬ o.outDir <+: od → ∀ s', savePlots mk o true (some od) s ≠ (.ok (), s')) := by
  have hne : od ++ [o.name ++ "_ground_motions.png"] ≠ od ++ [o.name ++ "_max_profiles.png"] := by
    intro e
    have := List.append_cancel_left e
    simp only [List.cons.injEq, and_true, String.append_right_inj] at this
    exact absurd this (by decide)
  have hcase : ∀ s', savePlots mk o true (some od) s = (.ok (), s') → ∃ s1 s2,
      ensureDir od s = (.ok (), s1) ∧ s2 = { s1 with fs := fsPut s1.fs (od ++ [o.name ++ "_ground_motions.png"]) (.file (mk "_ground_motions.png")) } ∧
      s' = { s2 with fs := fsPut s2.fs (o.outDir ++ [o.name ++ "_max_profiles.png"]) (.file (mk "_max_profiles.png")) } ∧
      fsGet s2.fs o.outDir = some .dir := by
    intro s' h
    unfold savePlots at h
    rw [if_pos rfl] at h
    obtain ⟨u, s1, h1, h2⟩ := bind_opok h
    obtain ⟨u2, s2, h3, h4⟩ := bind_opok h2
    rw [hm] at h4
    obtain ⟨e1, _, _⟩ := write_ok h3
    obtain ⟨e2, e3, _⟩ := write_ok h4
    exact ⟨s1, s2, h1, e1, e2, by simpa using e3⟩
  constructor
  · intro s' h
    obtain ⟨s1, s2, h1, e1, e2, _⟩ := hcase s' h
    refine ⟨by rw [e2]; exact fsGet_put_self _ _ _ (by simp), ?_⟩
    have hd : o.outDir ++ [o.name ++ "_max_profiles.png"] ≠ od ++ [o.name ++ "_max_profiles.png"] := by
      intro e
      exact hdir (by rw [List.append_cancel_right e])
    rw [e2]
    simp only
    rw [fsGet_put_ne _ _ _ _ hd, e1]
    simp only
    rw [fsGet_put_ne _ _ _ _ hne]
    -- making the directory does not make the file
    unfold ensureDir at h1
    obtain ⟨e, s0, g1, g2⟩ := bind_opok h1
    cases g1
    cases hg : (fsGet s.fs od).isSome with
    | true => rw [hg] at g2; cases g2; rfl
    | false =>
      rw [hg] at g2
      exact (makedirs_ok g2).2.2.2.2.1 _ (prefix_child _ _) (by intro e; have := congrArg List.length e; simp at this)
  · intro hnone hpre s' h
    obtain ⟨s1, s2, h1, e1, e2, e3⟩ := hcase s' h
    have hs1 : SameOutside od s.fs s1.fs := by
      have := keeps_ensure od s.fs s (SameOutside.refl _ _)
      rw [h1] at this
      exact this
    have h0 := hs1.2 o.outDir hdir hpre hnone
    rw [e1] at e3
    simp only at e3
    rw [fsGet_put_ne _ _ _ _ (by
      intro e
      exact hdir (by rw [← e]; exact prefix_child _ _)), h0] at e3
    cases e3

/-! ## Runs -/

/-- **C63** (runs): the every-layer and the equivalent-linear run make an object with the requested directory and
name, and write nothing outside of the directory. -/
theorem C63_runs_partial (mk : String → C) (time : String) (showFig saveFig saveTxt full : Bool) (name : String) (od : Path) (s : St C) :
    SameOutside od s.fs (linearFiles mk time true showFig saveFig saveTxt full (some name) (some od) s).2.fs ∧
    SameOutside od s.fs (equivFiles mk time showFig saveFig saveTxt full (some name) (some od) s).2.fs ∧
    (∀ o s', linearFiles mk time true showFig saveFig saveTxt full (some name) (some od) s = (.ok o, s') → o.outDir = od ∧ o.name = name) ∧
    (∀ o s', equivFiles mk time showFig saveFig saveTxt full (some name) (some od) s = (.ok o, s') → o.outDir = od ∧ o.name = name) := by
  have hp : ∀ (o : ResObj) (b : Bool), o.outDir = od → (savePlots mk o b none).Keeps fun s' => SameOutside od s.fs s'.fs := by
    intro o b ho
    cases b with
    | false => exact fun s hs => hs
    | true =>
      subst ho
      unfold savePlots
      refine Op.Keeps.bind (keeps_ensure _ _) fun _ => Op.Keeps.bind (keeps_write _ _ (prefix_child _ _)) fun _ => ?_
      cases o.hasMax with
      | true => exact keeps_write _ _ (prefix_child _ _)
      | false => exact fun s hs => hs
  have ht : ∀ (o : ResObj), o.outDir = od → (toTxt mk o full none).Keeps fun s' => SameOutside od s.fs s'.fs := by
    intro o ho
    subst ho
    unfold toTxt
    refine Op.Keeps.bind (keeps_ensure _ _) fun _ => ?_
    exact keeps_forEach _ fun e _ => keeps_write _ _ (prefix_child _ _)
  refine ⟨?_, ?_, ?_, ?_⟩
  · have : (linearFiles mk time true showFig saveFig saveTxt full (some name) (some od)).Keeps fun s' => SameOutside od s.fs s'.fs := by
      unfold linearFiles
      refine Op.Keeps.bind keeps_getcwd fun cwd => Op.Keeps.bind ?_ fun _ => Op.Keeps.bind ?_ fun _ => Op.Keeps.pure _
      · exact keeps_when _ fun _ => hp _ _ rfl
      · exact keeps_when _ fun _ => ht _ rfl
    exact this s (SameOutside.refl _ _)
  · have : (equivFiles mk time showFig saveFig saveTxt full (some name) (some od)).Keeps fun s' => SameOutside od s.fs s'.fs := by
      unfold equivFiles
      refine Op.Keeps.bind keeps_getcwd fun cwd => Op.Keeps.bind ?_ fun _ => Op.Keeps.bind ?_ fun _ => Op.Keeps.pure _
      · exact keeps_when _ fun _ => hp _ _ rfl
      · exact keeps_when _ fun _ => ht _ rfl
    exact this s (SameOutside.refl _ _)
  · intro o s' h
    unfold linearFiles at h
    obtain ⟨_, s1, _, h⟩ := bind_opok h
    obtain ⟨_, s2, _, h⟩ := bind_opok h
    obtain ⟨_, s3, _, h⟩ := bind_opok h
    cases h
    exact ⟨rfl, rfl⟩
  · intro o s' h
    unfold equivFiles at h
    obtain ⟨_, s1, _, h⟩ := bind_opok h
    obtain ⟨_, s2, _, h⟩ := bind_opok h
    obtain ⟨_, s3, _, h⟩ := bind_opok h
    cases h
    exact ⟨rfl, rfl⟩

/-- **C63 is violated** by `Linear_Simulation.run(every_layer=False)`: the requested name and directory are ignored,
text files go to a directory named after the time. -/
theorem C63_linear_violated (mk : String → C) (time : String) (showFig saveFig saveTxt full : Bool) (name : Option String)
    (od : Option Path) (s s' : St C) (o : ResObj)
    (h : linearFiles mk time false showFig saveFig saveTxt full name od s = (.ok o, s')) :
    o.outDir = s.cwd ++ ["sim_" ++ time] ∧ o.name = "accel_" ++ time ∧
    SameOutside (s.cwd ++ ["sim_" ++ time]) s.fs s'.fs := by
  unfold linearFiles at h
  obtain ⟨_, s1, h1, h⟩ := bind_opok h
  cases h1
  obtain ⟨_, s2, h2, h⟩ := bind_opok h
  cases h2
  obtain ⟨_, s3, h3, h⟩ := bind_opok h
  cases h
  refine ⟨rfl, rfl, ?_⟩
  cases saveTxt with
  | false => cases h3; exact SameOutside.refl _ _
  | true =>
    have := C63_txt_place mk ⟨s.cwd ++ ["sim_" ++ time], "accel_" ++ time, false, false, false, false, false, false, true, false⟩ full none s
    have e : toTxt mk ⟨s.cwd ++ ["sim_" ++ time], "accel_" ++ time, false, false, false, false, false, false, true, false⟩ full none s = (.ok (), s') := h3
    rw [e] at this
    exact this

/-- **C63** (runs): without `save_txt` and without figures to save nothing is written, whatever the other arguments. -/
theorem C63_quiet (mk : String → C) (time : String) (ev showFig saveFig full : Bool) (name : Option String) (od : Option Path)
    (s : St C) (hf : (showFig && saveFig) = false) :
    (linearFiles mk time ev showFig saveFig false full name od s).2 = s ∧
    (equivFiles mk time showFig saveFig false full name od s).2 = s := by
  have hp : ∀ (o : ResObj) (b : Bool), opWhen (b && showFig) (savePlots mk o saveFig none) s = (.ok (), s) := by
    intro o b
    cases b <;> cases showFig <;> cases saveFig <;> first | rfl | cases hf
  have hp' : ∀ (o : ResObj), opWhen showFig (savePlots mk o saveFig none) s = (.ok (), s) := by
    intro o
    have := hp o true
    rwa [Bool.true_and] at this
  constructor
  · unfold linearFiles
    rw [bind_run (x := opGetcwd) (s1 := s) (a := s.cwd) rfl]
    simp only
    rw [bind_run (hp _ ev)]
    rfl
  · unfold equivFiles
    rw [bind_run (x := opGetcwd) (s1 := s) (a := s.cwd) rfl]
    rw [bind_run (hp' _)]
    rfl

/-- **C63** (runs): with `save_txt` a run that returns has written the surface motion, the profile and the transfer
function under the name and in the directory of the returned object; the every-layer and the equivalent-linear run also the
maxima and, with `full`, all time histories. -/
theorem C63_written (mk : String → C) (hmk : ∀ a b, mk a = mk b → a = b) (time : String) (ev showFig saveFig full : Bool)
    (name : Option String) (od : Option Path) (s s' : St C) (o : ResObj)
    (h : linearFiles mk time ev showFig saveFig true full name od s = (.ok o, s') ∨
      (ev = true ∧ equivFiles mk time showFig saveFig true full name od s = (.ok o, s'))) :
    let f := fun e => fsGet s'.fs (o.outDir ++ [o.name ++ e]) = some (.file (mk e))
    f "_accel_on_surface.txt" ∧ f "_re-discretized_profile.txt" ∧ f "_nonlinear_TF_raw.txt" ∧
    (ev = true → f "_max_a_v_d.txt" ∧ f "_max_gamma_tau.txt" ∧
      (full = true → f "_time_history_accel.txt" ∧ f "_time_history_veloc.txt" ∧ f "_time_history_displ.txt" ∧
        f "_time_history_strain.txt" ∧ f "_time_history_stress.txt")) := by
  have key : ∃ s0, toTxt mk o full none s0 = (.ok (), s') ∧ o.hasTf = true ∧ (ev = true → o.hasMax = true ∧ o.hasA = true ∧
      o.hasV = true ∧ o.hasD = true ∧ o.hasGamma = true ∧ o.hasTau = true) := by
    rcases h with h | ⟨he, h⟩
    · unfold linearFiles at h
      obtain ⟨_, s1, h1, h⟩ := bind_opok h
      obtain ⟨_, s2, h2, h⟩ := bind_opok h
      obtain ⟨_, s3, h3, h⟩ := bind_opok h
      cases h
      refine ⟨s2, h3, ?_, ?_⟩
      · cases ev <;> rfl
      · intro he; subst he; exact ⟨rfl, rfl, rfl, rfl, rfl, rfl⟩
    · unfold equivFiles at h
      obtain ⟨_, s1, h1, h⟩ := bind_opok h
      obtain ⟨_, s2, h2, h⟩ := bind_opok h
      obtain ⟨_, s3, h3, h⟩ := bind_opok h
      cases h
      exact ⟨s2, h3, rfl, fun _ => ⟨rfl, rfl, rfl, rfl, rfl, rfl⟩⟩
  obtain ⟨s0, ht, htf, hm⟩ := key
  obtain ⟨a1, a2, a3, a4, a5, _⟩ := C63_txt_files mk hmk o full none s0 s' ht
  refine ⟨a1, a2, a5 htf, fun he => ?_⟩
  obtain ⟨b1, b2, b3, b4, b5, b6⟩ := hm he
  refine ⟨(a3 b1).1, (a3 b1).2, fun hfull => ?_⟩
  obtain ⟨c1, c2, c3, c4, c5⟩ := a4 hfull
  exact ⟨c1 b2, c2 b3, c3 b4, c4 b5, c5 b6⟩

/-! ### Concrete cases -/

/-- A directory `out` in the working directory `/home`. -/
def exSt : St String := ⟨[(["home"], .dir), (["home", "out"], .dir), (["home", "data.txt"], .file "data")], ["home"]⟩

/-- A result object for `/home/out`. -/
def exRes : ResObj := ⟨["home", "out"], "m", true, true, false, false, false, false, true, false⟩

example : ((toTxt id exRes true (some ["home", "new", "sub"]) exSt).2.fs.map Prod.fst) =
    [["home", "new", "sub", "m_nonlinear_TF_raw.txt"], ["home", "new", "sub", "m_time_history_accel.txt"],
     ["home", "new", "sub", "m_max_gamma_tau.txt"], ["home", "new", "sub", "m_max_a_v_d.txt"],
     ["home", "new", "sub", "m_re-discretized_profile.txt"], ["home", "new", "sub", "m_accel_on_surface.txt"],
     ["home", "new", "sub"], ["home", "new"], ["home"], ["home", "out"], ["home", "data.txt"]] := by decide +kernel

example : ((savePlots id exRes true (some ["home", "figs"]) exSt).2.fs.map Prod.fst) =
    [["home", "out", "m_max_profiles.png"], ["home", "figs", "m_ground_motions.png"], ["home", "figs"], ["home"],
     ["home", "out"], ["home", "data.txt"]] := by decide +kernel

example : (savePlots id { exRes with outDir := ["home", "gone"] } true (some ["home", "figs"]) exSt).1 = .error .fileNotFound := by
  decide +kernel

example : (linearFiles id "T" false false false true false (some "m") (some ["home", "out"]) exSt).1
    = .ok ⟨["home", "sim_T"], "accel_T", false, false, false, false, false, false, true, false⟩ := by decide +kernel

end Verif
