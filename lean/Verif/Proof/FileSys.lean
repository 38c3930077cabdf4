import Verif.Model.FileSys

/-!
Facts about the file-system operations.
-/

set_option linter.unusedSectionVars false
set_option linter.unusedVariables false

namespace Verif

variable {C α β : Type}

namespace Spec

/-- Every entry below a path lies in a directory. -/
def WfFs (fs : FS C) : Prop := ∀ (p : Path) (n : String), fsGet fs (p ++ [n]) ≠ none → fsGet fs p = some .dir

/-- Outside of `D` everything that was there is still there, and nothing was added but directories leading
to `D`. -/
def SameOutside (D : Path) (fs fs' : FS C) : Prop :=
  (∀ p n, ¬ D <+: p → fsGet fs p = some n → fsGet fs' p = some n) ∧
  (∀ p, ¬ D <+: p → ¬ p <+: D → fsGet fs p = none → fsGet fs' p = none)

end Spec

open Spec (WfFs SameOutside)

theorem andThen_ok {x : Op C α} {f : α → Op C β} {s s' : St C} {b : β} (h : Op.andThen x f s = (.ok b, s')) :
    ∃ a s1, x s = (.ok a, s1) ∧ f a s1 = (.ok b, s') := by
  unfold Op.andThen at h
  cases hx : x s with
  | mk r s1 =>
    rw [hx] at h
    cases r with
    | ok a => exact ⟨a, s1, rfl, h⟩
    | error e => simp at h

theorem bind_opok {x : Op C α} {f : α → Op C β} {s s' : St C} {b : β} (h : (x >>= f) s = (.ok b, s')) :
    ∃ a s1, x s = (.ok a, s1) ∧ f a s1 = (.ok b, s') := andThen_ok h

theorem bind_run {x : Op C α} {f : α → Op C β} {s s1 : St C} {a : α} (h : x s = (.ok a, s1)) : (x >>= f) s = f a s1 := by
  change Op.andThen x f s = _
  unfold Op.andThen
  rw [h]

theorem bind_run_err {x : Op C α} {f : α → Op C β} {s s1 : St C} {e : PyErr} (h : x s = (.error e, s1)) :
    (x >>= f) s = (.error e, s1) := by
  change Op.andThen x f s = _
  unfold Op.andThen
  rw [h]

/-- `x` keeps `I`, whether it returns or raises. -/
def Op.Keeps (I : St C → Prop) (x : Op C α) : Prop := ∀ s, I s → I (x s).2

theorem Op.Keeps.bind {I : St C → Prop} {x : Op C α} {f : α → Op C β} (hx : x.Keeps I) (hf : ∀ a, (f a).Keeps I) :
    (x >>= f).Keeps I := by
  intro s hs
  change I (Op.andThen x f s).2
  unfold Op.andThen
  have := hx s hs
  cases h : x s with
  | mk r s1 =>
    rw [h] at this
    cases r with
    | ok a => exact hf a s1 this
    | error e => exact this

theorem Op.Keeps.pure {I : St C → Prop} (a : α) : (pure a : Op C α).Keeps I := fun s hs => hs

theorem keeps_when {I : St C → Prop} (b : Bool) {x : Op C Unit} (h : b = true → x.Keeps I) : (opWhen b x).Keeps I := by
  cases b with
  | true => exact h rfl
  | false => exact fun s hs => hs

theorem keeps_lift {I : St C → Prop} (x : Except PyErr α) : (opLift x : Op C α).Keeps I := fun s hs => hs

theorem keeps_exists {I : St C → Prop} (p : Path) : (opExists p : Op C Bool).Keeps I := fun s hs => hs

theorem keeps_getcwd {I : St C → Prop} : (opGetcwd : Op C Path).Keeps I := fun s hs => hs

theorem keeps_read {I : St C → Prop} (p : Path) : (opRead p : Op C C).Keeps I := by
  intro s hs
  unfold opRead
  split <;> exact hs

theorem keeps_forEach {I : St C → Prop} {f : α → Op C Unit} (l : List α) (h : ∀ a ∈ l, (f a).Keeps I) :
    (opForEach f l).Keeps I := by
  induction l with
  | nil => intro s hs; exact hs
  | cons a l ih =>
    exact Op.Keeps.bind (h a List.mem_cons_self) fun _ => ih fun b hb => h b (List.mem_cons_of_mem _ hb)

/-! ## Lookups -/

theorem fsGet_root (fs : FS C) : fsGet fs [] = some .dir := by simp [fsGet]

theorem find_filter_ne (fs : FS C) (p q : Path) (h : p ≠ q) :
    ((fs.filter fun e => decide (e.1 ≠ p)).find? fun e => decide (e.1 = q)) = fs.find? fun e => decide (e.1 = q) := by
  induction fs with
  | nil => rfl
  | cons e fs ih =>
    by_cases c : e.1 = p
    · have cq : ¬ e.1 = q := fun x => h (c.symm.trans x)
      rw [List.filter_cons_of_neg (by simp [c]), List.find?_cons_of_neg (by simp [cq]), ih]
    · rw [List.filter_cons_of_pos (by simp [c])]
      by_cases cq : e.1 = q
      · rw [List.find?_cons_of_pos (by simp [cq]), List.find?_cons_of_pos (by simp [cq])]
      · rw [List.find?_cons_of_neg (by simp [cq]), List.find?_cons_of_neg (by simp [cq]), ih]

theorem fsGet_put_self (fs : FS C) (p : Path) (n : Node C) (hp : p ≠ []) : fsGet (fsPut fs p n) p = some n := by
  simp [fsGet, fsPut, hp]

theorem fsGet_put_ne (fs : FS C) (p q : Path) (n : Node C) (h : p ≠ q) : fsGet (fsPut fs p n) q = fsGet fs q := by
  unfold fsGet fsPut
  split
  · rfl
  · rw [List.find?_cons_of_neg (by simp [h]), find_filter_ne fs p q h]

theorem fsGet_del_self (fs : FS C) (p : Path) (hp : p ≠ []) : fsGet (fsDel fs p) p = none := by
  unfold fsGet fsDel
  rw [if_neg hp]
  have : (fs.filter fun e => decide (e.1 ≠ p)).find? (fun e => decide (e.1 = p)) = none := by
    rw [List.find?_eq_none]
    intro e he
    have := List.of_mem_filter he
    simpa using this
  rw [this]
  rfl

theorem fsGet_del_ne (fs : FS C) (p q : Path) (h : p ≠ q) : fsGet (fsDel fs p) q = fsGet fs q := by
  unfold fsGet fsDel
  split
  · rfl
  · rw [find_filter_ne fs p q h]

/-! ## The frame -/

theorem SameOutside.refl (D : Path) (fs : FS C) : SameOutside D fs fs := ⟨fun _ _ _ h => h, fun _ _ _ h => h⟩

theorem same_put {D : Path} {fs0 fs : FS C} (h : SameOutside D fs0 fs) (p : Path) (n : Node C) (hp : D <+: p) :
    SameOutside D fs0 (fsPut fs p n) := by
  refine ⟨fun q m hq h1 => ?_, fun q hq hq' h1 => ?_⟩
  · rw [fsGet_put_ne fs p q n (by rintro rfl; exact hq hp)]
    exact h.1 q m hq h1
  · rw [fsGet_put_ne fs p q n (by rintro rfl; exact hq hp)]
    exact h.2 q hq hq' h1

theorem same_del {D : Path} {fs0 fs : FS C} (h : SameOutside D fs0 fs) (p : Path) (hp : D <+: p) :
    SameOutside D fs0 (fsDel fs p) := by
  refine ⟨fun q m hq h1 => ?_, fun q hq hq' h1 => ?_⟩
  · rw [fsGet_del_ne fs p q (by rintro rfl; exact hq hp)]
    exact h.1 q m hq h1
  · rw [fsGet_del_ne fs p q (by rintro rfl; exact hq hp)]
    exact h.2 q hq hq' h1

theorem keeps_write {D : Path} {fs0 : FS C} (p : Path) (c : C) (hp : D <+: p) :
    (opWrite p c).Keeps fun s => SameOutside D fs0 s.fs := by
  intro s hs
  unfold opWrite
  split
  · split
    · exact hs
    · exact same_put hs p _ hp
  · exact hs

theorem keeps_remove {D : Path} {fs0 : FS C} (p : Path) (hp : D <+: p) :
    (opRemove p : Op C Unit).Keeps fun s => SameOutside D fs0 s.fs := by
  intro s hs
  unfold opRemove
  split
  · exact same_del hs p hp
  · exact hs
  · exact hs

/-- `mkdirAll` adds directories on the way only. -/
theorem mkdirAll_spec (cs : List String) : ∀ (done : Path) (fs fs' : FS C), mkdirAll done cs fs = .ok fs' →
    (∀ p n, fsGet fs p = some n → fsGet fs' p = some n) ∧
    (∀ p, ¬ p <+: done ++ cs → fsGet fs' p = fsGet fs p) ∧
    (∀ p n, fsGet fs p = none → fsGet fs' p = some n → n = .dir) ∧
    (cs ≠ [] → fsGet fs' (done ++ cs) = some .dir) := by
  induction cs with
  | nil => intro done fs fs' h; rw [mkdirAll] at h; cases h; exact ⟨fun _ _ h => h, fun _ _ => rfl, fun p n h1 h2 => absurd (h1.symm.trans h2) (by simp), fun h => absurd rfl h⟩
  | cons c cs ih =>
    intro done fs fs' h
    rw [mkdirAll] at h
    have happ : done ++ [c] ++ cs = done ++ c :: cs := by simp
    have hlast : ∀ fs1 : FS C, mkdirAll (done ++ [c]) cs fs1 = .ok fs' → fsGet fs1 (done ++ [c]) = some .dir →
        fsGet fs' (done ++ c :: cs) = some .dir := by
      intro fs1 h1 hd
      cases cs with
      | nil =>
        rw [mkdirAll] at h1
        cases h1
        simpa using hd
      | cons c2 cs2 => rw [← happ]; exact (ih _ _ _ h1).2.2.2 (by simp)
    cases hg : fsGet fs (done ++ [c]) with
    | none =>
      rw [hg] at h
      simp only at h
      obtain ⟨a, b, e, d⟩ := ih _ _ _ h
      refine ⟨fun p n hp => a p n ?_, fun p hp => ?_, fun p n h1 h2 => ?_, fun _ => hlast _ h (fsGet_put_self _ _ _ (by simp))⟩
      · rw [fsGet_put_ne _ _ _ _ (by rintro rfl; rw [hg] at hp; cases hp)]
        exact hp
      · rw [b p (by rw [happ]; exact hp), fsGet_put_ne]
        rintro rfl
        exact hp (by rw [← happ]; exact List.prefix_append _ _)
      · by_cases hq : done ++ [c] = p
        · have := a p .dir (by rw [hq]; exact fsGet_put_self _ _ _ (by rw [← hq]; simp))
          rw [this] at h2
          cases h2
          rfl
        · exact e p n (by rw [fsGet_put_ne _ _ _ _ hq]; exact h1) h2
    | some n =>
      cases n with
      | file x => rw [hg] at h; cases h
      | dir =>
        rw [hg] at h
        simp only at h
        obtain ⟨a, b, e, d⟩ := ih _ _ _ h
        exact ⟨a, fun p hp => b p (by rw [happ]; exact hp), e, fun _ => hlast _ h hg⟩

theorem makedirs_ok {p : Path} {s s' : St C} (h : opMakedirs p s = (.ok (), s')) :
    fsGet s.fs p = none ∧ s'.cwd = s.cwd ∧ fsGet s'.fs p = some .dir ∧ SameOutside p s.fs s'.fs ∧
    (∀ q, p <+: q → q ≠ p → fsGet s'.fs q = fsGet s.fs q) ∧
    (∀ q n, fsGet s.fs q = none → fsGet s'.fs q = some n → n = .dir) := by
  unfold opMakedirs at h
  by_cases c : (fsGet s.fs p).isSome = true
  · rw [if_pos c] at h; cases h
  · rw [if_neg c] at h
    have hnone : fsGet s.fs p = none := by
      cases hg : fsGet s.fs p with
      | none => rfl
      | some n => rw [hg] at c; exact absurd rfl c
    cases hm : mkdirAll [] p s.fs with
    | error e => rw [hm] at h; cases h
    | ok fs =>
      rw [hm] at h
      cases h
      obtain ⟨a, b, e, d⟩ := mkdirAll_spec p [] s.fs fs hm
      have hne : p ≠ [] := by rintro rfl; rw [fsGet_root] at hnone; cases hnone
      refine ⟨hnone, rfl, d hne, ⟨fun q n _ hq => a q n hq, fun q hq hq' h1 => ?_⟩, fun q hq hne' => ?_, e⟩
      · simp only [List.nil_append] at b
        rw [b q hq', h1]
      · exact b q fun hq' => hne' (hq'.eq_of_length_le hq.length_le)

theorem keeps_makedirs {D : Path} {fs0 : FS C} :
    ∀ s : St C, SameOutside D fs0 s.fs → SameOutside D fs0 (opMakedirs D s).2.fs := by
  intro s hs
  cases h : opMakedirs D s with
  | mk r s' =>
    cases r with
    | ok u =>
      obtain ⟨_, _, _, h2, _⟩ := makedirs_ok h
      exact ⟨fun p n hp h1 => h2.1 p n hp (hs.1 p n hp h1), fun p hp hp' h1 => h2.2 p hp hp' (hs.2 p hp hp' h1)⟩
    | error e =>
      have : s' = s := by
        unfold opMakedirs at h
        split at h
        · cases h; rfl
        · split at h
          · cases h
          · cases h; rfl
      rw [this]
      exact hs

theorem keeps_chdir {I : FS C → Prop} (p : Path) : (opChdir p : Op C Unit).Keeps fun s => I s.fs := by
  intro s hs
  unfold opChdir
  split <;> exact hs

theorem chdir_ok {p : Path} {s s' : St C} (h : opChdir p s = (.ok (), s')) : fsGet s.fs p = some .dir ∧ s' = { s with cwd := p } := by
  unfold opChdir at h
  split at h
  · cases h; exact ⟨by assumption, rfl⟩
  · cases h
  · cases h

theorem chdir_dir {p : Path} {s : St C} (h : fsGet s.fs p = some .dir) : opChdir p s = (.ok (), { s with cwd := p }) := by
  unfold opChdir
  rw [h]

/-! ## Removing directories -/

theorem rmdir_ok {p : Path} {s s' : St C} (h : opRmdir p s = (.ok (), s')) :
    p ≠ [] ∧ fsGet s.fs p = some .dir ∧ s' = { s with fs := fsDel s.fs p } ∧
    ∀ q n, p <+: q → q ≠ p → fsGet s.fs q ≠ some n := by
  unfold opRmdir at h
  by_cases c : p = []
  · rw [if_pos c] at h; cases h
  · rw [if_neg c] at h
    cases hg : fsGet s.fs p with
    | none => rw [hg] at h; cases h
    | some nd =>
      cases nd with
      | file x => rw [hg] at h; cases h
      | dir =>
        rw [hg] at h
        simp only at h
        by_cases e : isEmptyDir s.fs p = true
        · rw [if_pos e] at h
          cases h
          refine ⟨c, rfl, rfl, ?_⟩
          intro q n hq hne hc
          have hq0 : q ≠ [] := by rintro rfl; exact c (List.prefix_nil.mp hq)
          unfold fsGet at hc
          rw [if_neg hq0] at hc
          obtain ⟨e', he', _⟩ := Option.map_eq_some_iff.mp hc
          have hm := List.mem_of_find?_eq_some he'
          have hp := List.find?_some he'
          have := List.all_eq_true.mp e e' hm
          simp only [decide_eq_true_eq] at this hp
          rw [hp] at this
          exact this ⟨hq, hne⟩
        · rw [if_neg e] at h; cases h

theorem pruneLoop_step {p : Path} {ps : List Path} {s s1 : St C} {u : Unit} (h : opRmdir p s = (.ok u, s1)) :
    pruneLoop (p :: ps) s = pruneLoop ps s1 := by
  change (match opRmdir p s with
    | (.ok _, s') => pruneLoop ps s'
    | (.error _, s') => ((Except.ok () : Except PyErr Unit), s')) = _
  rw [h]

theorem pruneLoop_stop {p : Path} {ps : List Path} {s s1 : St C} {e : PyErr} (h : opRmdir p s = (.error e, s1)) :
    pruneLoop (p :: ps) s = (.ok (), s1) := by
  change (match opRmdir p s with
    | (.ok _, s') => pruneLoop ps s'
    | (.error _, s') => ((Except.ok () : Except PyErr Unit), s')) = _
  rw [h]

/-- Removing removes directories only, all of them among the given ones. -/
theorem pruneLoop_spec (ps : List Path) : ∀ s : St C, (∃ s', pruneLoop ps s = (.ok (), s')) ∧
    (pruneLoop ps s).2.cwd = s.cwd ∧
    ∀ q, fsGet (pruneLoop ps s).2.fs q = fsGet s.fs q ∨
      (q ∈ ps ∧ fsGet s.fs q = some .dir ∧ fsGet (pruneLoop ps s).2.fs q = none) := by
  induction ps with
  | nil => intro s; exact ⟨⟨s, rfl⟩, rfl, fun q => .inl rfl⟩
  | cons p ps ih =>
    intro s
    cases h : opRmdir p s with
    | mk r s1 =>
      cases r with
      | error e =>
        have hs : s1 = s := by
          unfold opRmdir at h
          repeat' split at h
          all_goals first | (cases h; rfl) | cases h
        rw [pruneLoop_stop h, hs]
        exact ⟨⟨s, rfl⟩, rfl, fun q => .inl rfl⟩
      | ok u =>
        obtain ⟨hne, hd, hs1, _⟩ := rmdir_ok h
        obtain ⟨a, b, c⟩ := ih s1
        rw [pruneLoop_step h]
        refine ⟨a, by rw [b, hs1], ?_⟩
        intro q
        by_cases hq : q = p
        · subst hq
          right
          refine ⟨List.mem_cons_self, hd, ?_⟩
          have hdel : fsGet s1.fs q = none := by rw [hs1]; exact fsGet_del_self _ _ hne
          rcases c q with c | ⟨_, c, _⟩
          · rw [c, hdel]
          · rw [hdel] at c; cases c
        · have hsame : fsGet s1.fs q = fsGet s.fs q := by rw [hs1]; exact fsGet_del_ne _ _ _ (Ne.symm hq)
          rcases c q with c | ⟨c1, c2, c3⟩
          · left; rw [c, hsame]
          · right; exact ⟨List.mem_cons_of_mem _ c1, by rw [← hsame]; exact c2, c3⟩

theorem parentsOf_prefix (anchor : Path) (rel : List String) (q : Path) (h : q ∈ parentsOf anchor rel) :
    q <+: anchor ++ rel := by
  unfold parentsOf at h
  obtain ⟨k, _, hk⟩ := List.mem_filterMap.mp h
  by_cases c : k = 0
  · rw [if_pos c] at hk; cases hk
  · rw [if_neg c] at hk
    cases hk
    exact (List.prefix_append_right_inj anchor).mpr (List.take_prefix k rel)

/-- `os.removedirs` removes directories only, the named one and directories on the way to it. -/
theorem removedirs_spec (anchor : Path) (rel : List String) (s : St C) :
    (opRemovedirs anchor rel s).2.cwd = s.cwd ∧
    ∀ q, fsGet (opRemovedirs anchor rel s).2.fs q = fsGet s.fs q ∨
      (q <+: anchor ++ rel ∧ fsGet s.fs q = some .dir ∧ fsGet (opRemovedirs anchor rel s).2.fs q = none) := by
  unfold opRemovedirs
  cases h : opRmdir (anchor ++ rel) s with
  | mk r s1 =>
    cases r with
    | error e =>
      rw [bind_run_err h]
      have hs : s1 = s := by
        unfold opRmdir at h
        repeat' split at h
        all_goals first | (cases h; rfl) | cases h
      rw [hs]
      exact ⟨rfl, fun q => .inl rfl⟩
    | ok u =>
      rw [bind_run h]
      obtain ⟨hne, hd, hs1, _⟩ := rmdir_ok h
      obtain ⟨_, b, c⟩ := pruneLoop_spec (parentsOf anchor rel) s1
      refine ⟨by rw [b, hs1], ?_⟩
      intro q
      by_cases hq : q = anchor ++ rel
      · right
        have hdel : fsGet s1.fs q = none := by rw [hs1, hq]; exact fsGet_del_self _ _ hne
        refine ⟨by rw [hq], by rw [hq]; exact hd, ?_⟩
        rcases c q with c | ⟨_, c, _⟩
        · rw [c, hdel]
        · rw [hdel] at c; cases c
      · have hsame : fsGet s1.fs q = fsGet s.fs q := by rw [hs1]; exact fsGet_del_ne _ _ _ (Ne.symm hq)
        rcases c q with c | ⟨c1, c2, c3⟩
        · left; rw [c, hsame]
        · right; exact ⟨parentsOf_prefix anchor rel q c1, by rw [← hsame]; exact c2, c3⟩

end Verif
