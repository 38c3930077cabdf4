import Verif.Model.Nonlinear
import Verif.Props.ResultFiles
import Verif.Proof.VsProfile

/-!
C61, C62 (directories of a nonlinear run), C101, C102 (what the kernel gets and what is reported).
-/

set_option linter.unusedSectionVars false
set_option linter.unusedVariables false

namespace Verif

open Spec (WfFs SameOutside Valid5)

/-! ## Keeping invariants -/

section Keeps
variable {C α β : Type}

/-- From `I` before to `J` after, whether `x` returns or raises. -/
def Op.Leads (I J : St C → Prop) (x : Op C α) : Prop := ∀ s, I s → J (x s).2

theorem Op.Leads.bind {I J : St C → Prop} {x : Op C α} {f : α → Op C β} (hx : x.Keeps I) (hIJ : ∀ s, I s → J s)
    (hf : ∀ a, (f a).Leads I J) : (x >>= f).Leads I J := by
  intro s hs
  have := hx s hs
  cases h : x s with
  | mk r s1 =>
    rw [h] at this
    cases r with
    | ok a => rw [bind_run h]; exact hf a s1 this
    | error e => rw [bind_run_err h]; exact hIJ s1 this

theorem keeps_write_cwd {D : Path} (p : Path) (c : C) : (opWrite p c).Keeps fun s => s.cwd = D := by
  intro s hs
  unfold opWrite
  split
  · split <;> exact hs
  · exact hs

theorem keeps_remove_cwd {D : Path} (p : Path) : (opRemove p : Op C Unit).Keeps fun s => s.cwd = D := by
  intro s hs
  unfold opRemove
  split <;> exact hs

theorem keeps_makedirs_cwd {D : Path} (p : Path) : (opMakedirs p : Op C Unit).Keeps fun s => s.cwd = D := by
  intro s hs
  unfold opMakedirs
  split
  · exact hs
  · split <;> exact hs

theorem keeps_ensure_cwd {D : Path} (p : Path) : (ensureDir p : Op C Unit).Keeps fun s => s.cwd = D := by
  unfold ensureDir
  refine Op.Keeps.bind (keeps_exists p) fun e => ?_
  cases e with
  | true => exact fun s hs => hs
  | false => exact keeps_makedirs_cwd p

theorem keeps_plots_cwd {D : Path} (mk : String → C) (o : ResObj) (b : Bool) (od : Option Path) :
    (savePlots mk o b od).Keeps fun s => s.cwd = D := by
  unfold savePlots
  cases b with
  | false => exact fun s hs => hs
  | true =>
    exact Op.Keeps.bind (keeps_ensure_cwd _) fun _ => Op.Keeps.bind (keeps_write_cwd _ _) fun _ =>
      keeps_when _ fun _ => keeps_write_cwd _ _

theorem keeps_txt_cwd {D : Path} (mk : String → C) (o : ResObj) (b : Bool) (od : Option Path) :
    (toTxt mk o b od).Keeps fun s => s.cwd = D := by
  unfold toTxt
  exact Op.Keeps.bind (keeps_ensure_cwd _) fun _ => keeps_forEach _ fun _ _ => keeps_write_cwd _ _

theorem keeps_removedirs_cwd {D : Path} (anchor : Path) (rel : List String) :
    (opRemovedirs anchor rel : Op C Unit).Keeps fun s => s.cwd = D := by
  intro s hs
  rw [(removedirs_spec anchor rel s).1]
  exact hs

/-- Two invariants at once. -/
theorem Op.Keeps.and {I J : St C → Prop} {x : Op C α} (h1 : x.Keeps I) (h2 : x.Keeps J) : x.Keeps fun s => I s ∧ J s :=
  fun s hs => ⟨h1 s hs.1, h2 s hs.2⟩

end Keeps

section Run
variable {K T : Type} [Field K] [LinearOrder K]

theorem kernel_ok {kern : Kernel K} {s s' : St (FC K)} (h : opKernel kern s = (.ok (), s')) :
    ∃ outs, kern (kernelView s) = .ok outs ∧ opForEach (fun p : String × FC K => opWrite (s.cwd ++ [p.1]) p.2) outs s = (.ok (), s') := by
  unfold opKernel at h
  split at h
  · cases h
  · rename_i outs ho
    exact ⟨outs, ho, h⟩

theorem keeps_kernel {dir : Path} {fs0 : FS (FC K)} (kern : Kernel K) :
    (opKernel kern).Keeps fun s => SameOutside dir fs0 s.fs ∧ s.cwd = dir := by
  intro s hs
  unfold opKernel
  split
  · exact hs
  · rename_i outs _
    obtain ⟨h1, h2⟩ := hs
    have hk : (opForEach (fun p : String × FC K => opWrite (s.cwd ++ [p.1]) p.2) outs).Keeps
        fun s' => SameOutside dir fs0 s'.fs ∧ s'.cwd = dir :=
      keeps_forEach _ fun p _ => (keeps_write _ _ (by rw [h2]; exact prefix_child _ _)).and (keeps_write_cwd _ _)
    exact hk s ⟨h1, h2⟩

theorem keeps_table {I : St (FC K) → Prop} (d : Path) (n : String) : (opTable d n : Op (FC K) (Arr K)).Keeps I := by
  unfold opTable
  exact Op.Keeps.bind (keeps_read _) fun _ => keeps_lift _

theorem keeps_readAll {I : St (FC K) → Prop} (d : Path) : (nlReadAll d : Op (FC K) (NlRead K)).Keeps I := by
  unfold nlReadAll
  exact Op.Keeps.bind (keeps_table _ _) fun _ => Op.Keeps.bind (keeps_table _ _) fun _ => Op.Keeps.bind (keeps_table _ _) fun _ =>
    Op.Keeps.bind (keeps_table _ _) fun _ => Op.Keeps.bind (keeps_table _ _) fun _ => Op.Keeps.bind (keeps_table _ _) fun _ =>
    Op.Keeps.bind (keeps_table _ _) fun _ => Op.Keeps.pure _

theorem keeps_clean {dir : Path} {fs0 : FS (FC K)} :
    (nlClean dir : Op (FC K) Unit).Keeps fun s => SameOutside dir fs0 s.fs ∧ s.cwd = dir := by
  intro s hs
  have : (opForEach (fun n => opRemove (dir ++ [n])) (globDat s.fs dir) >>= fun _ => opRemove (dir ++ ["NLHH.unix"]) :
      Op (FC K) Unit).Keeps fun s => SameOutside dir fs0 s.fs ∧ s.cwd = dir :=
    Op.Keeps.bind (keeps_forEach _ fun n _ => (keeps_remove _ (prefix_child _ _)).and (keeps_remove_cwd _)) fun _ =>
      (keeps_remove _ (prefix_child _ _)).and (keeps_remove_cwd _)
  exact this s hs

/-- Inside the simulation directory nothing outside changes; afterwards the working directory is the old one or
the simulation directory. -/
theorem inside_leads {dir old : Path} {fs0 : FS (FC K)} (kern : Kernel K) (tf tfs : Rec K → Rec K → Except PyErr T) (x : Rec K) :
    (nlInside kern tf tfs x dir old).Leads (fun s => SameOutside dir fs0 s.fs ∧ s.cwd = old)
      fun s => SameOutside dir fs0 s.fs ∧ (s.cwd = old ∨ s.cwd = dir) := by
  intro s hs
  unfold nlInside
  cases h : opChdir dir s with
  | mk r s1 =>
    cases r with
    | error e =>
      rw [bind_run_err h]
      have hs1 : s1 = s := by
        unfold opChdir at h
        split at h
        · cases h
        · cases h; rfl
        · cases h; rfl
      rw [hs1]
      exact ⟨hs.1, .inl hs.2⟩
    | ok u =>
      rw [bind_run h]
      obtain ⟨_, e⟩ := chdir_ok h
      have h1 : SameOutside dir fs0 s1.fs ∧ s1.cwd = dir := by rw [e]; exact ⟨hs.1, rfl⟩
      have hmono : ∀ t : St (FC K), SameOutside dir fs0 t.fs ∧ t.cwd = dir → SameOutside dir fs0 t.fs ∧ (t.cwd = old ∨ t.cwd = dir) :=
        fun t ht => ⟨ht.1, .inr ht.2⟩
      refine Op.Leads.bind (I := fun s => SameOutside dir fs0 s.fs ∧ s.cwd = dir)
        (J := fun s => SameOutside dir fs0 s.fs ∧ (s.cwd = old ∨ s.cwd = dir)) (keeps_kernel kern) hmono (fun _ => ?_) s1 h1
      refine Op.Leads.bind (keeps_readAll _) hmono fun r => ?_
      refine Op.Leads.bind keeps_clean hmono fun _ => ?_
      refine Op.Leads.bind (keeps_lift _) hmono fun q => ?_
      intro t ht
      cases h2 : opChdir old t with
      | mk r2 t2 =>
        cases r2 with
        | error e2 =>
          rw [bind_run_err h2]
          have ht2 : t2 = t := by
            unfold opChdir at h2
            split at h2
            · cases h2
            · cases h2; rfl
            · cases h2; rfl
          rw [ht2]
          exact ⟨ht.1, .inr ht.2⟩
        | ok u2 =>
          rw [bind_run h2]
          obtain ⟨_, e2⟩ := chdir_ok h2
          rw [e2]
          exact ⟨ht.1, .inl rfl⟩

theorem inside_ok {dir old : Path} {kern : Kernel K} {tf tfs : Rec K → Rec K → Except PyErr T} {x : Rec K} {s s' : St (FC K)}
    {rq : NlRead K × (Rec K × List (K × K × K × K) × List (K × K × K) × T × T)} (h : nlInside kern tf tfs x dir old s = (.ok rq, s')) :
    ∃ s1 s2 s3, fsGet s.fs dir = some .dir ∧ opKernel kern { s with cwd := dir } = (.ok (), s1) ∧ nlReadAll dir s1 = (.ok rq.1, s2) ∧
      nlClean dir s2 = (.ok (), s3) ∧ nlPost tf tfs x rq.1 = .ok rq.2 ∧ s' = { s3 with cwd := old } := by
  unfold nlInside at h
  obtain ⟨_, t1, h1, h⟩ := bind_opok h
  obtain ⟨_, t2, h2, h⟩ := bind_opok h
  obtain ⟨r, t3, h3, h⟩ := bind_opok h
  obtain ⟨_, t4, h4, h⟩ := bind_opok h
  obtain ⟨q, t5, h5, h⟩ := bind_opok h
  obtain ⟨_, t6, h6, h⟩ := bind_opok h
  obtain ⟨hd, e1⟩ := chdir_ok h1
  obtain ⟨_, e6⟩ := chdir_ok h6
  have e5 : t5 = t4 := by
    have := congrArg Prod.snd h5
    exact this.symm
  have e5' : nlPost tf tfs x r = .ok q := congrArg Prod.fst h5
  cases h
  exact ⟨t2, t3, t4, hd, by rw [← e1]; exact h2, h3, h4, e5', by rw [e6, e5]⟩

variable [IsStrictOrderedRing K] [FloorRing K]

/-- The directory that a run uses. -/
def Spec.runDir (fs : FS (FC K)) (anchor : Path) (rel : List String) : List String :=
  if fsGet fs (anchor ++ rel.filter (· ≠ "")) = none then rel.filter (· ≠ "")
  else (rel.dropLast ++ [rel.getLastD "" ++ "_"]).filter (· ≠ "")

theorem chooseDir_run (anchor : Path) (rel : List String) (s : St (FC K)) :
    chooseDir anchor rel s = (.ok (Spec.runDir s.fs anchor rel), s) := by
  unfold chooseDir
  have he : opExists (anchor ++ rel.filter (· ≠ "")) s = (.ok (fsGet s.fs (anchor ++ rel.filter (· ≠ ""))).isSome, s) := rfl
  rw [bind_run he]
  unfold Spec.runDir
  cases h : fsGet s.fs (anchor ++ rel.filter (· ≠ "")) with
  | none => rw [if_pos rfl]; rfl
  | some n =>
    have : ¬ (some n : Option (Node (FC K))) = none := by simp
    rw [if_neg this]
    rfl

/-- What comes after the directory is made and before the results are saved. -/
theorem run_inv {kern : Kernel K} {tf tfs : Rec K → Rec K → Except PyErr T} {i : NlIn K} {op : NlOpts} {anchor : Path}
    {rel : List String} {s s' : St (FC K)} {res : NlRes K T} (h : nonlinearRun kern tf tfs i op anchor rel s = (.ok res, s')) :
    ∃ s1 curves hhG hhX s2 s3 rq,
      opMakedirs (anchor ++ Spec.runDir s.fs anchor rel) s = (.ok (), s1) ∧ checkVsFormat (.five i.rows) = .ok () ∧
      i.curves = .ok curves ∧ i.hhG = .ok hhG ∧ i.hhX = .ok hhX ∧
      opForEach (fun p => opWrite (anchor ++ Spec.runDir s.fs anchor rel ++ [p.1]) p.2) (nlFiles i curves hhG hhX) s1 = (.ok (), s2) ∧
      nlInside kern tf tfs i.accel (anchor ++ Spec.runDir s.fs anchor rel) s.cwd s2 = (.ok rq, s3) ∧ s2.cwd = s.cwd ∧
      nlPack (nlProfile i.rows) (anchor ++ Spec.runDir s.fs anchor rel) rq.1 rq.2 = .ok res ∧
      s3.cwd = s.cwd ∧ s'.cwd = s.cwd ∧
      (op.showFig = false → op.saveTxt = false → (op.saveFig = true ∨ op.removeDir = false) → s' = s3) := by
  unfold nonlinearRun at h
  rw [bind_run (chooseDir_run anchor rel s)] at h
  simp only at h
  obtain ⟨_, s1, h1, h⟩ := bind_opok h
  obtain ⟨_, t2, h2, h⟩ := bind_opok h
  obtain ⟨curves, t3, h3, h⟩ := bind_opok h
  obtain ⟨hhG, t4, h4, h⟩ := bind_opok h
  obtain ⟨hhX, t5, h5, h⟩ := bind_opok h
  obtain ⟨_, s2, h6, h⟩ := bind_opok h
  obtain ⟨old, t7, h7, h⟩ := bind_opok h
  obtain ⟨rq, s3, h8, h⟩ := bind_opok h
  obtain ⟨res', t9, h9, h⟩ := bind_opok h
  obtain ⟨_, t10, h10, h⟩ := bind_opok h
  obtain ⟨_, t11, h11, h⟩ := bind_opok h
  obtain ⟨_, t12, h12, h⟩ := bind_opok h
  have e2 : t2 = s1 := (congrArg Prod.snd h2).symm
  have e3 : t3 = t2 := (congrArg Prod.snd h3).symm
  have e4 : t4 = t3 := (congrArg Prod.snd h4).symm
  have e5 : t5 = t4 := (congrArg Prod.snd h5).symm
  have e7 : t7 = s2 := (congrArg Prod.snd h7).symm
  have e7' : old = s2.cwd := (Except.ok.inj (congrArg Prod.fst h7)).symm
  have e9 : t9 = s3 := (congrArg Prod.snd h9).symm
  have e12 : s' = t12 := (congrArg Prod.snd h).symm
  have e12' : res = res' := (Except.ok.inj (congrArg Prod.fst h)).symm
  clear h
  subst e2 e3 e4 e5 e7 e7' e9 e12 e12'
  have c1 : t5.cwd = s.cwd := (makedirs_ok h1).2.1
  have c2 : t7.cwd = t5.cwd := by
    have : (opForEach (fun p : String × FC K => opWrite (anchor ++ Spec.runDir s.fs anchor rel ++ [p.1]) p.2)
        (nlFiles i curves hhG hhX)).Keeps fun s => s.cwd = t5.cwd := keeps_forEach _ fun _ _ => keeps_write_cwd _ _
    have := this t5 rfl
    rw [h6] at this
    exact this
  have c3 : t9.cwd = t7.cwd := by
    obtain ⟨_, _, s3', _, _, _, _, _, e⟩ := inside_ok h8
    rw [e]
  have c4 : t10.cwd = t9.cwd := by
    have := keeps_when (I := fun s => s.cwd = t9.cwd) op.showFig (fun _ => keeps_plots_cwd FC.res
      ⟨anchor ++ Spec.runDir s.fs anchor rel, op.name, true, true, true, true, true, true, true, true⟩ op.saveFig none) t9 rfl
    rw [h10] at this
    exact this
  have c5 : t11.cwd = t10.cwd := by
    have := keeps_when (I := fun s => s.cwd = t10.cwd) op.saveTxt (fun _ => keeps_txt_cwd FC.res
      ⟨anchor ++ Spec.runDir s.fs anchor rel, op.name, true, true, true, true, true, true, true, true⟩ op.full none) t10 rfl
    rw [h11] at this
    exact this
  have c6 : s'.cwd = t11.cwd := by
    have := keeps_when (I := fun s => s.cwd = t11.cwd) (!op.saveTxt && !op.saveFig && op.removeDir)
      (fun _ => keeps_removedirs_cwd anchor (Spec.runDir s.fs anchor rel)) t11 rfl
    rw [h12] at this
    exact this
  refine ⟨t5, curves, hhG, hhX, t7, t9, rq, h1, congrArg Prod.fst h2, congrArg Prod.fst h3, congrArg Prod.fst h4, congrArg Prod.fst h5,
    h6, by rw [← c1, ← c2]; exact h8, by rw [c2, c1], congrArg Prod.fst h9, by rw [c3, c2, c1], by rw [c6, c5, c4, c3, c2, c1], ?_⟩
  intro f1 f2 f3
  rw [f1] at h10
  rw [f2] at h11 h12
  have g1 : t10 = t9 := (congrArg Prod.snd h10).symm
  have g2 : t11 = t10 := (congrArg Prod.snd h11).symm
  have g3 : (!false && !op.saveFig && op.removeDir) = false := by
    rcases f3 with f3 | f3 <;> rw [f3] <;> simp
  rw [g3] at h12
  have g4 : s' = t11 := (congrArg Prod.snd h12).symm
  rw [g4, g2, g1]


/-! ## A fresh directory -/

theorem fresh_below {C : Type} {fs : FS C} (hw : WfFs fs) {p : Path} (h : fsGet fs p = none) (q : Path) (hq : p <+: q) : fsGet fs q = none := by
  obtain ⟨t, rfl⟩ := hq
  induction t using List.reverseRecOn with
  | nil => simpa using h
  | append_singleton t x ih =>
    by_contra hc
    have := hw (p ++ t) x (by rw [List.append_assoc]; exact hc)
    rw [ih] at this
    cases this

/-- Writing files into a directory without subdirectories of these names succeeds. -/
theorem writes_succeed {C α : Type} (D : Path) (nm : α → String) (ct : α → C) (l : List α) :
    ∀ s : St C, fsGet s.fs D = some .dir → (∀ n, fsGet s.fs (D ++ [n]) ≠ some .dir) →
      ∃ s', opForEach (fun a => opWrite (D ++ [nm a]) (ct a)) l s = (.ok (), s') ∧ fsGet s'.fs D = some .dir := by
  induction l with
  | nil => intro s hd _; exact ⟨s, rfl, hd⟩
  | cons a l ih =>
    intro s hd hno
    have hw : opWrite (D ++ [nm a]) (ct a) s = (.ok (), { s with fs := fsPut s.fs (D ++ [nm a]) (.file (ct a)) }) := by
      unfold opWrite
      rw [List.dropLast_concat, hd]
      simp only
      split
      · rename_i hc; exact absurd hc (hno _)
      · rfl
    obtain ⟨s', hs', hd'⟩ := ih { s with fs := fsPut s.fs (D ++ [nm a]) (.file (ct a)) }
      (by
        rw [fsGet_put_ne _ _ _ _ (by
          intro e
          have := congrArg List.length e
          simp at this)]
        exact hd)
      (by
        intro n
        by_cases e : D ++ [nm a] = D ++ [n]
        · rw [← e, fsGet_put_self _ _ _ (by simp)]
          simp
        · rw [fsGet_put_ne _ _ _ _ e]
          exact hno n)
    exact ⟨s', (bind_run hw).trans hs', hd'⟩

theorem nlFiles_inj [IsStrictOrderedRing K] [FloorRing K] (i : NlIn K) (c g x : List (List K)) (p q : String × FC K)
    (hp : p ∈ nlFiles i c g x) (hq : q ∈ nlFiles i c g x) (h : p.1 = q.1) : p = q := by
  simp only [nlFiles, List.mem_cons, List.not_mem_nil, or_false] at hp hq
  rcases hp with rfl | rfl | rfl | rfl | rfl | rfl | rfl | rfl <;> rcases hq with rfl | rfl | rfl | rfl | rfl | rfl | rfl | rfl <;>
    first | rfl | (exfalso; revert h; simp)

/-- All files of a list with distinct names are there after writing it. -/
theorem writes_there' {C : Type} (D : Path) (l : List (String × C)) (hinj : ∀ p ∈ l, ∀ q ∈ l, p.1 = q.1 → p = q) :
    ∀ s s', opForEach (fun p => opWrite (D ++ [p.1]) p.2) l s = (.ok (), s') →
      (∀ p ∈ l, fsGet s'.fs (D ++ [p.1]) = some (.file p.2)) ∧
      (∀ q, (∀ p ∈ l, q ≠ D ++ [p.1]) → fsGet s'.fs q = fsGet s.fs q) := by
  induction l with
  | nil => intro s s' h; cases h; exact ⟨fun a ha => absurd ha (by simp), fun _ _ => rfl⟩
  | cons x l ih =>
    intro s s' h
    obtain ⟨u, s1, h1, h2⟩ := andThen_ok h
    obtain ⟨e1, e2, e3⟩ := write_ok h1
    obtain ⟨i2, i3⟩ := ih (fun p hp q hq => hinj p (List.mem_cons_of_mem _ hp) q (List.mem_cons_of_mem _ hq)) s1 s' h2
    have hput : s1.fs = fsPut s.fs (D ++ [x.1]) (.file x.2) := by rw [e1]
    refine ⟨?_, ?_⟩
    · intro a ha
      by_cases hx : a ∈ l
      · exact i2 a hx
      · have hax : a = x := by
          rcases List.mem_cons.mp ha with h | h
          · exact h
          · exact absurd h hx
        subst hax
        rw [i3 _ (by
            intro b hb hc
            have := List.append_cancel_left hc
            simp only [List.cons.injEq, and_true] at this
            have := hinj a List.mem_cons_self b (List.mem_cons_of_mem _ hb) this
            exact hx (this ▸ hb)), hput]
        exact fsGet_put_self _ _ _ (by simp)
    · intro p hp
      rw [i3 p (fun a ha => hp a (List.mem_cons_of_mem _ ha)), hput,
        fsGet_put_ne _ _ _ _ (Ne.symm (hp x List.mem_cons_self))]

/-! ## C61 -/

/-- **C61** (partial): if the run returns, the working directory is the one before.  Missing: runs that raise, see
`C61_cwd_violated`. -/
theorem C61_returned_partial {kern : Kernel K} {tf tfs : Rec K → Rec K → Except PyErr T} {i : NlIn K} {op : NlOpts} {anchor : Path}
    {rel : List String} {s s' : St (FC K)} {res : NlRes K T} (h : nonlinearRun kern tf tfs i op anchor rel s = (.ok res, s')) :
    s'.cwd = s.cwd := by
  obtain ⟨_, _, _, _, _, _, _, _, _, _, _, _, _, _, _, _, _, h, _⟩ := run_inv h
  exact h

/-- The part of the run before the working directory is changed. -/
theorem run_setup {kern : Kernel K} {tf tfs : Rec K → Rec K → Except PyErr T} {i : NlIn K} {op : NlOpts} {anchor : Path}
    {rel : List String} {s s1 : St (FC K)} {curves hhG hhX : List (List K)} (hw : WfFs s.fs)
    (hmk : opMakedirs (anchor ++ Spec.runDir s.fs anchor rel) s = (.ok (), s1)) (hv : Valid5 i.rows)
    (hc : i.curves = .ok curves) (hg : i.hhG = .ok hhG) (hx : i.hhX = .ok hhX) :
    ∃ s2, opForEach (fun p => opWrite (anchor ++ Spec.runDir s.fs anchor rel ++ [p.1]) p.2) (nlFiles i curves hhG hhX) s1 = (.ok (), s2) ∧
      fsGet s2.fs (anchor ++ Spec.runDir s.fs anchor rel) = some .dir ∧ s2.cwd = s.cwd ∧
      (∀ p ∈ nlFiles i curves hhG hhX, fsGet s2.fs (anchor ++ Spec.runDir s.fs anchor rel ++ [p.1]) = some (.file p.2)) ∧
      (∀ n, (∀ p ∈ nlFiles i curves hhG hhX, n ≠ p.1) → fsGet s2.fs (anchor ++ Spec.runDir s.fs anchor rel ++ [n]) = none) ∧
      ∀ e t, nlInside kern tf tfs i.accel (anchor ++ Spec.runDir s.fs anchor rel) s.cwd s2 = (.error e, t) →
        nonlinearRun kern tf tfs i op anchor rel s = (.error e, t) := by
  obtain ⟨m1, m2, m3, m4, m5, _⟩ := makedirs_ok hmk
  have hbelow : ∀ n, fsGet s1.fs (anchor ++ Spec.runDir s.fs anchor rel ++ [n]) = none := by
    intro n
    rw [m5 _ (prefix_child _ _) (by intro e; have := congrArg List.length e; simp at this)]
    exact fresh_below hw m1 _ (prefix_child _ _)
  obtain ⟨s2, h2, h3⟩ := writes_succeed (anchor ++ Spec.runDir s.fs anchor rel) Prod.fst Prod.snd (nlFiles i curves hhG hhX) s1 m3
    (fun n => by rw [hbelow]; simp)
  obtain ⟨w1, w2⟩ := writes_there' _ _ (fun p hp q hq => nlFiles_inj i curves hhG hhX p q hp hq) s1 s2 h2
  have hcwd : s2.cwd = s1.cwd := by
    have : (opForEach (fun p : String × FC K => opWrite (anchor ++ Spec.runDir s.fs anchor rel ++ [p.1]) p.2)
        (nlFiles i curves hhG hhX)).Keeps fun s => s.cwd = s1.cwd := keeps_forEach _ fun _ _ => keeps_write_cwd _ _
    have := this s1 rfl
    rw [h2] at this
    exact this
  refine ⟨s2, h2, h3, hcwd.trans m2, w1, ?_, ?_⟩
  · intro n hn
    rw [w2 _ (by
      intro p hp hc
      have := List.append_cancel_left hc
      simp only [List.cons.injEq, and_true] at this
      exact hn p hp this)]
    exact hbelow n
  · intro e t ht
    unfold nonlinearRun
    rw [bind_run (chooseDir_run anchor rel s)]
    simp only
    rw [bind_run hmk]
    have k1 : opLift (checkVsFormat (.five i.rows)) s1 = (.ok (), s1) := by
      unfold opLift; rw [(checkVsFormat_five_ok i.rows).mpr hv]
    rw [bind_run k1]
    have k2 : opLift i.curves s1 = (.ok curves, s1) := by unfold opLift; rw [hc]
    rw [bind_run k2]
    have k3 : opLift i.hhG s1 = (.ok hhG, s1) := by unfold opLift; rw [hg]
    rw [bind_run k3]
    have k4 : opLift i.hhX s1 = (.ok hhX, s1) := by unfold opLift; rw [hx]
    rw [bind_run k4, bind_run h2]
    have k5 : opGetcwd s2 = (.ok s.cwd, s2) := by unfold opGetcwd; rw [hcwd, m2]
    rw [bind_run k5, bind_run_err ht]

/-- **C61 is violated**: if the kernel cannot be run, or does not write its first result file, the call raises and
leaves the process in the simulation directory, which is not the one before. -/
theorem C61_cwd_violated {kern : Kernel K} {tf tfs : Rec K → Rec K → Except PyErr T} {i : NlIn K} {op : NlOpts} {anchor : Path}
    {rel : List String} {s s1 : St (FC K)} {curves hhG hhX : List (List K)} (hw : WfFs s.fs) (hcwd : fsGet s.fs s.cwd = some .dir)
    (hmk : opMakedirs (anchor ++ Spec.runDir s.fs anchor rel) s = (.ok (), s1)) (hv : Valid5 i.rows)
    (hc : i.curves = .ok curves) (hg : i.hhG = .ok hhG) (hx : i.hhX = .ok hhX)
    (hk : ∀ v, (∃ e, kern v = .error e) ∨ ∃ outs, kern v = .ok outs ∧ ∀ p ∈ outs, p.1 ≠ "node_depth.dat") :
    ∃ e s', nonlinearRun kern tf tfs i op anchor rel s = (.error e, s') ∧
      s'.cwd = anchor ++ Spec.runDir s.fs anchor rel ∧ s'.cwd ≠ s.cwd := by
  obtain ⟨s2, h2, h3, h4, h5, h6, h7⟩ := run_setup (kern := kern) (tf := tf) (tfs := tfs) (op := op) hw hmk hv hc hg hx
  have hne : anchor ++ Spec.runDir s.fs anchor rel ≠ s.cwd := by
    intro e
    have := (makedirs_ok hmk).1
    rw [e, hcwd] at this
    cases this
  suffices h : ∃ e t, nlInside kern tf tfs i.accel (anchor ++ Spec.runDir s.fs anchor rel) s.cwd s2 = (.error e, t) ∧
      t.cwd = anchor ++ Spec.runDir s.fs anchor rel by
    obtain ⟨e, t, ht, htc⟩ := h
    exact ⟨e, t, h7 e t ht, htc, by rw [htc]; exact hne⟩
  generalize anchor ++ Spec.runDir s.fs anchor rel = D at *
  unfold nlInside
  rw [bind_run (chdir_dir h3)]
  have hnd : fsGet s2.fs (D ++ ["node_depth.dat"]) = none := h6 _ (by
    intro p hp
    simp only [nlFiles, List.mem_cons, List.not_mem_nil, or_false] at hp
    rcases hp with rfl | rfl | rfl | rfl | rfl | rfl | rfl | rfl <;> simp)
  cases hkr : opKernel kern { s2 with cwd := D } with
  | mk r t =>
    have ht : t.cwd = D := by
      have := keeps_kernel (dir := D) (fs0 := s2.fs) kern { s2 with cwd := D } ⟨SameOutside.refl _ _, rfl⟩
      rw [hkr] at this
      exact this.2
    cases r with
    | error e => rw [bind_run_err hkr]; exact ⟨e, t, rfl, ht⟩
    | ok u =>
      rw [bind_run hkr]
      have hnd' : fsGet t.fs (D ++ ["node_depth.dat"]) = none := by
        obtain ⟨outs, ho, how⟩ := kernel_ok hkr
        have hn : ∀ p ∈ outs, p.1 ≠ "node_depth.dat" := by
          rcases hk (kernelView { s2 with cwd := D }) with ⟨e, he⟩ | ⟨outs', ho', hn⟩
          · rw [ho] at he; cases he
          · rw [ho] at ho'; cases ho'; exact hn
        have key : ∀ (l : List (String × FC K)), (∀ p ∈ l, p.1 ≠ "node_depth.dat") →
            (opForEach (fun p : String × FC K => opWrite (D ++ [p.1]) p.2) l).Keeps
              fun s => fsGet s.fs (D ++ ["node_depth.dat"]) = none := by
          intro l hl
          refine keeps_forEach _ fun p hp s hs => ?_
          unfold opWrite
          split
          · split
            · exact hs
            · simp only
              rw [fsGet_put_ne _ _ _ _ (by
                intro e
                have := List.append_cancel_left e
                simp only [List.cons.injEq, and_true] at this
                exact hl p hp this)]
              exact hs
          · exact hs
        have := key outs hn { s2 with cwd := D } hnd
        rw [how] at this
        exact this
      have hread : nlReadAll D t = (.error .fileNotFound, t) := by
        unfold nlReadAll
        have : opTable D "node_depth.dat" t = (.error .fileNotFound, t) := by
          unfold opTable
          have : opRead (D ++ ["node_depth.dat"]) t = (.error .fileNotFound, t) := by unfold opRead; rw [hnd']
          rw [bind_run_err this]
        rw [bind_run_err this]
      rw [bind_run_err hread]
      exact ⟨_, t, rfl, ht⟩

/-! ## C62 -/

theorem nlPack_dir {prof : List (Row K)} {dir : Path} {r : NlRead K} {q : Rec K × List (K × K × K × K) × List (K × K × K) × T × T}
    {res : NlRes K T} (h : nlPack prof dir r q = .ok res) : res.dir = dir := by
  unfold nlPack at h
  cases hm : mkProfile [.five prof] 0 .one .gcc false 3 with
  | error e => rw [hm] at h; cases h
  | ok pσ =>
    simp only [hm, bind, Except.bind] at h
    split at h
    · repeat' split at h
      all_goals first | (cases h; done) | (cases h; rfl)
    · cases h

/-- **C62** (the directory is new): the directory that a run reports did not exist before. -/
theorem C62_fresh {kern : Kernel K} {tf tfs : Rec K → Rec K → Except PyErr T} {i : NlIn K} {op : NlOpts} {anchor : Path}
    {rel : List String} {s s' : St (FC K)} {res : NlRes K T} (h : nonlinearRun kern tf tfs i op anchor rel s = (.ok res, s')) :
    fsGet s.fs res.dir = none := by
  obtain ⟨_, _, _, _, _, _, _, h1, _, _, _, _, _, _, _, hp, _⟩ := run_inv h
  rw [nlPack_dir hp]
  exact (makedirs_ok h1).1

/-- **C62** (no second choice): if the named directory and the one with an underscore exist, the run raises
and changes nothing. -/
theorem C62_exists {kern : Kernel K} {tf tfs : Rec K → Rec K → Except PyErr T} {i : NlIn K} {op : NlOpts} {anchor : Path}
    {rel : List String} {s : St (FC K)} (h1 : fsGet s.fs (anchor ++ rel.filter (· ≠ "")) ≠ none)
    (h2 : fsGet s.fs (anchor ++ (rel.dropLast ++ [rel.getLastD "" ++ "_"]).filter (· ≠ "")) ≠ none) :
    nonlinearRun kern tf tfs i op anchor rel s = (.error .fileExists, s) := by
  unfold nonlinearRun
  rw [bind_run (chooseDir_run anchor rel s)]
  simp only
  have : opMakedirs (anchor ++ Spec.runDir s.fs anchor rel) s = (.error .fileExists, s) := by
    unfold opMakedirs Spec.runDir
    rw [if_neg h1]
    cases hg : fsGet s.fs (anchor ++ (rel.dropLast ++ [rel.getLastD "" ++ "_"]).filter (· ≠ "")) with
    | none => exact absurd hg h2
    | some n => rfl
  rw [bind_run_err this]

/-- **C62** (partial): whether the run returns or raises, at any point: every entry of the file system outside of
the simulation directory is still there, except that the run may remove directories on the way to it, and nothing
is added outside of it but directories leading to it.  Missing: that these directories stay, see
`C62_parent_violated`. -/
theorem C62_outside_partial (kern : Kernel K) (tf tfs : Rec K → Rec K → Except PyErr T) (i : NlIn K) (op : NlOpts) (anchor : Path)
    (rel : List String) (s : St (FC K)) :
    (∀ p n, ¬ anchor ++ Spec.runDir s.fs anchor rel <+: p → fsGet s.fs p = some n →
      fsGet (nonlinearRun kern tf tfs i op anchor rel s).2.fs p = some n ∨
      (n = .dir ∧ p <+: anchor ++ Spec.runDir s.fs anchor rel ∧ op.saveTxt = false ∧ op.saveFig = false ∧ op.removeDir = true)) ∧
    (∀ p, ¬ anchor ++ Spec.runDir s.fs anchor rel <+: p → ¬ p <+: anchor ++ Spec.runDir s.fs anchor rel → fsGet s.fs p = none →
      fsGet (nonlinearRun kern tf tfs i op anchor rel s).2.fs p = none) := by
  unfold nonlinearRun
  rw [bind_run (chooseDir_run anchor rel s)]
  simp only
  generalize Spec.runDir s.fs anchor rel = rel'
  generalize hD : anchor ++ rel' = D
  let I : St (FC K) → Prop := fun t => SameOutside D s.fs t.fs
  let J : St (FC K) → Prop := fun t =>
    (∀ p n, ¬ D <+: p → fsGet s.fs p = some n → fsGet t.fs p = some n ∨
      (n = .dir ∧ p <+: D ∧ op.saveTxt = false ∧ op.saveFig = false ∧ op.removeDir = true)) ∧
    (∀ p, ¬ D <+: p → ¬ p <+: D → fsGet s.fs p = none → fsGet t.fs p = none)
  have hIJ : ∀ t, I t → J t := fun t ht => ⟨fun p n h1 h2 => .inl (ht.1 p n h1 h2), ht.2⟩
  have hp : ∀ (b : Bool), (savePlots FC.res ⟨D, op.name, true, true, true, true, true, true, true, true⟩ b none).Keeps I := by
    intro b
    cases b with
    | false => exact fun s hs => hs
    | true =>
      unfold savePlots
      exact Op.Keeps.bind (keeps_ensure _ _) fun _ => Op.Keeps.bind (keeps_write _ _ (prefix_child _ _)) fun _ =>
        keeps_when _ fun _ => keeps_write _ _ (prefix_child _ _)
  have ht : (toTxt FC.res ⟨D, op.name, true, true, true, true, true, true, true, true⟩ op.full none).Keeps I := by
    unfold toTxt
    exact Op.Keeps.bind (keeps_ensure _ _) fun _ => keeps_forEach _ fun e _ => keeps_write _ _ (prefix_child _ _)
  have hin : ∀ old, (nlInside kern tf tfs i.accel D old).Keeps I := by
    intro old
    unfold nlInside
    have hkk : (opKernel kern >>= fun _ => nlReadAll D >>= fun r => nlClean D >>= fun _ => opLift (nlPost tf tfs i.accel r) >>= fun q =>
        opChdir old >>= fun _ => pure (r, q)).Leads (fun t => I t ∧ t.cwd = D) I := by
      have hm : ∀ t : St (FC K), I t ∧ t.cwd = D → I t := fun _ h => h.1
      refine Op.Leads.bind (keeps_kernel kern) hm fun _ => Op.Leads.bind (keeps_readAll _) hm fun r =>
        Op.Leads.bind keeps_clean hm fun _ => Op.Leads.bind (keeps_lift _) hm fun q => ?_
      intro t ht
      exact Op.Keeps.bind (keeps_chdir (I := fun fs => SameOutside D s.fs fs) old) (fun _ => Op.Keeps.pure _) t ht.1
    intro t ht
    cases hc : opChdir D t with
    | mk r t1 =>
      cases r with
      | error e =>
        rw [bind_run_err hc]
        have := keeps_chdir (I := fun fs => SameOutside D s.fs fs) D t ht
        rw [hc] at this
        exact this
      | ok u =>
        rw [bind_run hc]
        obtain ⟨_, e⟩ := chdir_ok hc
        exact hkk t1 (by rw [e]; exact ⟨ht, rfl⟩)
  have main : ((do
      opMakedirs D
      opLift (checkVsFormat (.five i.rows))
      let curves ← opLift i.curves
      let hhG ← opLift i.hhG
      let hhX ← opLift i.hhX
      opForEach (fun p => opWrite (D ++ [p.1]) p.2) (nlFiles i curves hhG hhX)
      let old ← opGetcwd
      let rq ← nlInside kern tf tfs i.accel D old
      let res ← opLift (nlPack (nlProfile i.rows) D rq.1 rq.2)
      opWhen op.showFig (savePlots FC.res ⟨D, op.name, true, true, true, true, true, true, true, true⟩ op.saveFig none)
      opWhen op.saveTxt (toTxt FC.res ⟨D, op.name, true, true, true, true, true, true, true, true⟩ op.full none)
      opWhen (!op.saveTxt && !op.saveFig && op.removeDir) (opRemovedirs anchor rel')
      pure res : Op (FC K) (NlRes K T))).Leads I J := by
    refine Op.Leads.bind keeps_makedirs hIJ fun _ => Op.Leads.bind (keeps_lift _) hIJ fun _ => Op.Leads.bind (keeps_lift _) hIJ fun _ =>
      Op.Leads.bind (keeps_lift _) hIJ fun _ => Op.Leads.bind (keeps_lift _) hIJ fun _ =>
      Op.Leads.bind (keeps_forEach _ fun p _ => keeps_write _ _ (prefix_child _ _)) hIJ fun _ => Op.Leads.bind keeps_getcwd hIJ fun _ =>
      Op.Leads.bind (hin _) hIJ fun _ => Op.Leads.bind (keeps_lift _) hIJ fun _ => Op.Leads.bind (keeps_when _ fun _ => hp _) hIJ fun _ =>
      Op.Leads.bind (keeps_when _ fun _ => ht) hIJ fun _ => ?_
    intro t ht
    cases hb : (!op.saveTxt && !op.saveFig && op.removeDir) with
    | false => exact hIJ t ht
    | true =>
      simp only [Bool.and_eq_true, Bool.not_eq_true'] at hb
      obtain ⟨_, hr⟩ := removedirs_spec anchor rel' t
      have hJ : J (opRemovedirs anchor rel' t).2 := by
        refine ⟨fun p n h1 h2 => ?_, fun p h1 h2 h3 => ?_⟩
        · rcases hr p with h | ⟨ha, hb', hc'⟩
          · left; rw [h]; exact ht.1 p n h1 h2
          · right
            have := ht.1 p n h1 h2
            rw [hb'] at this
            exact ⟨(Option.some.inj this).symm, by rw [← hD]; exact ha, hb.1.1, hb.1.2, hb.2⟩
        · rcases hr p with h | ⟨_, _, hc'⟩
          · rw [h]; exact ht.2 p h1 h2 h3
          · exact hc'
      cases hx : opRemovedirs anchor rel' t with
      | mk r t1 =>
        rw [hx] at hJ
        have hx' : opWhen true (opRemovedirs anchor rel') t = (r, t1) := hx
        cases r with
        | error e => rw [bind_run_err hx']; exact hJ
        | ok u => rw [bind_run hx']; exact hJ
  exact main s (SameOutside.refl _ _)

theorem isEmptyDir_iff {C : Type} (fs : FS C) (p : Path) (hp : p ≠ []) :
    isEmptyDir fs p = true ↔ ∀ q, p <+: q → q ≠ p → fsGet fs q = none := by
  unfold isEmptyDir
  rw [List.all_eq_true]
  constructor
  · intro h q hq hne
    unfold fsGet
    rw [if_neg (by rintro rfl; exact hp (List.prefix_nil.mp hq))]
    have : fs.find? (fun e => decide (e.1 = q)) = none := by
      rw [List.find?_eq_none]
      intro e he hc
      have := h e he
      simp only [decide_eq_true_eq] at this hc
      exact this (by rw [hc]; exact ⟨hq, hne⟩)
    rw [this]
    rfl
  · intro h e he
    simp only [decide_eq_true_eq]
    rintro ⟨h1, h2⟩
    have := h e.1 h1 h2
    unfold fsGet at this
    rw [if_neg (by intro c; rw [c] at h1; exact hp (List.prefix_nil.mp h1))] at this
    rw [Option.map_eq_none_iff, List.find?_eq_none] at this
    exact this e he (by simp)

theorem rmdir_succeeds {C : Type} {p : Path} {s : St C} (hp : p ≠ []) (hd : fsGet s.fs p = some .dir)
    (he : ∀ q, p <+: q → q ≠ p → fsGet s.fs q = none) : opRmdir p s = (.ok (), { s with fs := fsDel s.fs p }) := by
  unfold opRmdir
  rw [if_neg hp, hd]
  simp only
  rw [if_pos ((isEmptyDir_iff s.fs p hp).mpr he)]

theorem run_removed {kern : Kernel K} {tf tfs : Rec K → Rec K → Except PyErr T} {i : NlIn K} {op : NlOpts} {anchor : Path}
    {rel : List String} {s s' : St (FC K)} {res : NlRes K T} (h : nonlinearRun kern tf tfs i op anchor rel s = (.ok res, s'))
    (h1 : op.saveTxt = false) (h2 : op.saveFig = false) (h3 : op.removeDir = true) :
    ∃ t, SameOutside (anchor ++ Spec.runDir s.fs anchor rel) s.fs t.fs ∧
      opRemovedirs anchor (Spec.runDir s.fs anchor rel) t = (.ok (), s') := by
  have hrun : nonlinearRun kern tf tfs i { op with removeDir := false } anchor rel s = nonlinearRun kern tf tfs i { op with removeDir := false } anchor rel s := rfl
  have hout := C62_outside_partial kern tf tfs i { op with removeDir := false } anchor rel s
  unfold nonlinearRun at h hout
  rw [bind_run (chooseDir_run anchor rel s)] at h hout
  simp only at h hout
  obtain ⟨_, s1, g1, h⟩ := bind_opok h
  obtain ⟨_, s2, g2, h⟩ := bind_opok h
  obtain ⟨curves, s3, g3, h⟩ := bind_opok h
  obtain ⟨hhG, s4, g4, h⟩ := bind_opok h
  obtain ⟨hhX, s5, g5, h⟩ := bind_opok h
  obtain ⟨_, s6, g6, h⟩ := bind_opok h
  obtain ⟨old, s7, g7, h⟩ := bind_opok h
  obtain ⟨rq, s8, g8, h⟩ := bind_opok h
  obtain ⟨res', s9, g9, h⟩ := bind_opok h
  obtain ⟨_, s10, g10, h⟩ := bind_opok h
  obtain ⟨_, s11, g11, h⟩ := bind_opok h
  obtain ⟨_, s12, g12, h⟩ := bind_opok h
  have e12 : s' = s12 := (congrArg Prod.snd h).symm
  refine ⟨s11, ?_, ?_⟩
  · rw [bind_run g1, bind_run g2, bind_run g3, bind_run g4, bind_run g5, bind_run g6, bind_run g7, bind_run g8, bind_run g9,
      bind_run g10, bind_run g11] at hout
    have hw : opWhen (!op.saveTxt && !op.saveFig && false) (opRemovedirs anchor (Spec.runDir s.fs anchor rel)) s11 = (.ok (), s11) := by
      rw [Bool.and_false]; rfl
    rw [bind_run hw] at hout
    refine ⟨fun p n hp hn => ?_, hout.2⟩
    rcases hout.1 p n hp hn with hh | ⟨_, _, _, _, hh⟩
    · exact hh
    · cases hh
  · rw [h1, h2, h3] at g12
    rw [e12]
    exact g12

/-- **C62** (removal): a run that was asked to remove the simulation directory, and returns, has removed it. -/
theorem C62_removed {kern : Kernel K} {tf tfs : Rec K → Rec K → Except PyErr T} {i : NlIn K} {op : NlOpts} {anchor : Path}
    {rel : List String} {s s' : St (FC K)} {res : NlRes K T} (h : nonlinearRun kern tf tfs i op anchor rel s = (.ok res, s'))
    (h1 : op.saveTxt = false) (h2 : op.saveFig = false) (h3 : op.removeDir = true) :
    res.dir = anchor ++ Spec.runDir s.fs anchor rel ∧ ∀ p, res.dir <+: p → fsGet s'.fs p = none := by
  have hd : res.dir = anchor ++ Spec.runDir s.fs anchor rel := by
    obtain ⟨_, _, _, _, _, _, _, _, _, _, _, _, _, _, _, hp, _⟩ := run_inv h
    exact nlPack_dir hp
  refine ⟨hd, ?_⟩
  obtain ⟨t, _, ht⟩ := run_removed h h1 h2 h3
  rw [hd]
  generalize Spec.runDir s.fs anchor rel = rel' at *
  unfold opRemovedirs at ht
  obtain ⟨_, t1, g1, g2⟩ := bind_opok ht
  obtain ⟨a, b, c, d⟩ := rmdir_ok g1
  intro p hp
  have h1 : fsGet t1.fs p = none := by
    rw [c]
    by_cases e : p = anchor ++ rel'
    · rw [e]; exact fsGet_del_self _ _ a
    · simp only
      rw [fsGet_del_ne _ _ _ (Ne.symm e)]
      cases hg : fsGet t.fs p with
      | none => rfl
      | some n => exact absurd hg (d p n hp e)
  have := (pruneLoop_spec (parentsOf anchor rel') t1).2.2 p
  rw [g2] at this
  rcases this with h | ⟨_, _, h⟩
  · rw [h, h1]
  · exact h

/-- **C62 is violated**: a directory that existed before, and was empty, is removed together with the simulation
directory that was made in it. -/
theorem C62_parent_violated {kern : Kernel K} {tf tfs : Rec K → Rec K → Except PyErr T} {i : NlIn K} {op : NlOpts} {anchor : Path}
    {rel : List String} {s s' : St (FC K)} {res : NlRes K T} {a b : String} (hr : Spec.runDir s.fs anchor rel = [a, b])
    (hex : fsGet s.fs (anchor ++ [a]) = some .dir) (hem : ∀ q, anchor ++ [a] <+: q → q ≠ anchor ++ [a] → fsGet s.fs q = none)
    (h1 : op.saveTxt = false) (h2 : op.saveFig = false) (h3 : op.removeDir = true)
    (h : nonlinearRun kern tf tfs i op anchor rel s = (.ok res, s')) :
    fsGet s'.fs (anchor ++ [a]) = none := by
  obtain ⟨t, hs, ht⟩ := run_removed h h1 h2 h3
  rw [hr] at hs ht
  unfold opRemovedirs at ht
  obtain ⟨_, t1, g1, g2⟩ := bind_opok ht
  obtain ⟨x, y, c, d⟩ := rmdir_ok g1
  have hpar : parentsOf anchor [a, b] = [anchor ++ [a]] := by
    simp [parentsOf, List.range_succ]
  rw [hpar] at g2
  have hnp : ¬ anchor ++ [a, b] <+: anchor ++ [a] := fun h => by have := h.length_le; simp at this
  have hdir : fsGet t1.fs (anchor ++ [a]) = some .dir := by
    rw [c]
    simp only
    rw [fsGet_del_ne _ _ _ (by intro e; have := congrArg List.length e; simp at this)]
    exact hs.1 _ _ hnp hex
  have hempty : ∀ q, anchor ++ [a] <+: q → q ≠ anchor ++ [a] → fsGet t1.fs q = none := by
    intro q hq hne
    rw [c]
    by_cases e : anchor ++ [a, b] = q
    · rw [← e]; exact fsGet_del_self _ _ x
    · simp only
      rw [fsGet_del_ne _ _ _ e]
      by_cases hp : anchor ++ [a, b] <+: q
      · cases hg : fsGet t.fs q with
        | none => rfl
        | some n => exact absurd hg (d q n hp (Ne.symm e))
      · refine hs.2 q hp ?_ (hem q hq hne)
        intro hp'
        have l1 := hq.length_le
        have l2 := hp'.length_le
        simp only [List.length_append, List.length_cons, List.length_nil] at l1 l2
        rcases Nat.lt_or_ge q.length (anchor.length + 2) with h | h
        · exact hne (hq.eq_of_length_le (by simp; omega)).symm
        · exact e (hp'.eq_of_length_le (by simp; omega)).symm
  have hrm := rmdir_succeeds (by simp : anchor ++ [a] ≠ []) hdir hempty
  rw [pruneLoop_step hrm] at g2
  cases g2
  exact fsGet_del_self _ _ (by simp)

/-- **C62** (a slash at the end): if the named directory exists and the name ends in a slash, the simulation
directory is inside of it. -/
theorem C62_slash (fs : FS (FC K)) (anchor : Path) (d : String) (hd : d ≠ "") (h : fsGet fs (anchor ++ [d]) = some .dir) :
    Spec.runDir fs anchor [d, ""] = [d, "_"] ∧ Spec.runDir fs anchor [d] = [d ++ "_"] := by
  have hne : d ++ "_" ≠ "" := by
    intro e
    have := congrArg String.length e
    simp at this
  constructor <;> simp [Spec.runDir, hd, h, hne]

end Run

end Verif
