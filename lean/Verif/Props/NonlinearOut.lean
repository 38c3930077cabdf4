import Verif.Props.Nonlinear
import Verif.Proof.Stratify
import Verif.Proof.Amplify

/-!
C101, C102: what the kernel of the nonlinear simulation gets, and what is reported.
-/

set_option linter.unusedSectionVars false
set_option linter.unusedVariables false

namespace Verif

open Spec (WfFs SameOutside Valid5)

variable {K T : Type} [Field K] [LinearOrder K]

namespace Spec

/-- The content with which a list of writes leaves a file. -/
def lastOf {C : Type} (outs : List (String × C)) (n : String) : Option C := (outs.reverse.find? fun p => decide (p.1 = n)).map Prod.snd

/-- A row of a profile in the file for the kernel, density in g/cm^3. -/
def fileRow (r : Row K) : List K := [r.thk, r.vs, r.xi, r.rho / 1000, r.mat]

end Spec

open Spec (lastOf fileRow)

theorem lastOf_cons {C : Type} (x : String × C) (l : List (String × C)) (n : String) :
    lastOf (x :: l) n = (lastOf l n).or (if x.1 = n then some x.2 else none) := by
  unfold lastOf
  rw [List.reverse_cons, List.find?_append]
  cases h : l.reverse.find? fun p => decide (p.1 = n) with
  | some p => simp
  | none =>
    simp only [Option.none_or, Option.map_none]
    by_cases c : x.1 = n
    · simp [c]
    · simp [c]

/-- After a list of writes into one directory each file has the last content written to it, or that of before. -/
theorem writes_last {C : Type} (D : Path) (l : List (String × C)) :
    ∀ s s', opForEach (fun p => opWrite (D ++ [p.1]) p.2) l s = (.ok (), s') →
      ∀ n, fsGet s'.fs (D ++ [n]) = match lastOf l n with
        | some c => some (.file c)
        | none => fsGet s.fs (D ++ [n]) := by
  induction l with
  | nil => intro s s' h n; cases h; rfl
  | cons x l ih =>
    intro s s' h n
    obtain ⟨u, s1, h1, h2⟩ := andThen_ok h
    obtain ⟨e1, _, _⟩ := write_ok h1
    rw [ih s1 s' h2 n, lastOf_cons]
    cases hl : lastOf l n with
    | some c => rfl
    | none =>
      simp only [Option.none_or]
      by_cases c : x.1 = n
      · rw [if_pos c, e1, ← c]
        exact fsGet_put_self _ _ _ (by simp)
      · rw [if_neg c, e1]
        simp only
        exact fsGet_put_ne _ _ _ _ (by
          intro e
          have := List.append_cancel_left e
          simp only [List.cons.injEq, and_true] at this
          exact c this)

theorem table_ok {d : Path} {n : String} {s s' : St (FC K)} {a : Arr K} (h : opTable d n s = (.ok a, s')) :
    s' = s ∧ ∃ c, fsGet s.fs (d ++ [n]) = some (.file c) ∧ toArr c = .ok a := by
  unfold opTable at h
  obtain ⟨c, s1, h1, h2⟩ := bind_opok h
  unfold opRead at h1
  split at h1
  · rename_i c' hc
    cases h1
    exact ⟨(congrArg Prod.snd h2).symm, c, hc, congrArg Prod.fst h2⟩
  · cases h1
  · cases h1

theorem readAll_ok {d : Path} {s s' : St (FC K)} {r : NlRead K} (h : nlReadAll d s = (.ok r, s')) :
    s' = s ∧
    (∃ c, fsGet s.fs (d ++ ["node_depth.dat"]) = some (.file c) ∧ toArr c = .ok r.zb) ∧
    (∃ c, fsGet s.fs (d ++ ["layer_depth.dat"]) = some (.file c) ∧ toArr c = .ok r.zm) ∧
    (∃ c, fsGet s.fs (d ++ ["out_a.dat"]) = some (.file c) ∧ toArr c = .ok r.a) ∧
    (∃ c, fsGet s.fs (d ++ ["out_v.dat"]) = some (.file c) ∧ toArr c = .ok r.v) ∧
    (∃ c, fsGet s.fs (d ++ ["out_d.dat"]) = some (.file c) ∧ toArr c = .ok r.d) ∧
    (∃ c, fsGet s.fs (d ++ ["out_gamma.dat"]) = some (.file c) ∧ toArr c = .ok r.gamma) ∧
    (∃ c, fsGet s.fs (d ++ ["out_tau.dat"]) = some (.file c) ∧ toArr c = .ok r.tau) := by
  unfold nlReadAll at h
  obtain ⟨a1, s1, h1, h⟩ := bind_opok h
  obtain ⟨a2, s2, h2, h⟩ := bind_opok h
  obtain ⟨a3, s3, h3, h⟩ := bind_opok h
  obtain ⟨a4, s4, h4, h⟩ := bind_opok h
  obtain ⟨a5, s5, h5, h⟩ := bind_opok h
  obtain ⟨a6, s6, h6, h⟩ := bind_opok h
  obtain ⟨a7, s7, h7, h⟩ := bind_opok h
  obtain ⟨e1, k1⟩ := table_ok h1
  obtain ⟨e2, k2⟩ := table_ok h2
  obtain ⟨e3, k3⟩ := table_ok h3
  obtain ⟨e4, k4⟩ := table_ok h4
  obtain ⟨e5, k5⟩ := table_ok h5
  obtain ⟨e6, k6⟩ := table_ok h6
  obtain ⟨e7, k7⟩ := table_ok h7
  have er : r = ⟨a1, a2, a3, a4, a5, a6, a7⟩ := (Except.ok.inj (congrArg Prod.fst h)).symm
  have es : s' = s7 := (congrArg Prod.snd h).symm
  subst er es e1 e2 e3 e4 e5 e6 e7
  exact ⟨rfl, k1, k2, k3, k4, k5, k6, k7⟩

variable [IsStrictOrderedRing K] [FloorRing K]

theorem checkHist_ok {a : Arr K} {nt k : Nat} (h : checkHist a nt k = .ok ()) :
    ∃ cols, a = .mat cols ∧ cols.length = k ∧ ∀ c ∈ cols, c.length = nt := by
  unfold checkHist at h
  split at h
  · rename_i cols
    split at h
    · rename_i hc; exact ⟨cols, rfl, hc⟩
    · cases h
  · cases h

/-- The re-discretised profile with the densities of the input. -/
theorem profile_back (rows : List (Row K)) :
    (nlProfile rows).map (convertRow .one .gcc) = (stratify (rows.map toL)).map ofL := by
  unfold nlProfile
  rw [List.map_map]
  conv_rhs => rw [← List.map_id ((stratify (rows.map toL)).map ofL)]
  apply List.map_congr_left
  intro r _
  simp [convertRow]

theorem pack_inv {prof : List (Row K)} {dir : Path} {r : NlRead K} {q : Rec K × List (K × K × K × K) × List (K × K × K) × T × T}
    {res : NlRes K T} (h : nlPack prof dir r q = .ok res) :
    Valid5 prof ∧ res.read = r ∧ res.surface = q.1 ∧ res.maxAvd = q.2.1 ∧ res.maxGt = q.2.2.1 ∧ res.tf = q.2.2.2.1 ∧
    res.tfs = q.2.2.2.2 ∧ res.profile = prof.map (convertRow .one .gcc) ∧ res.dir = dir ∧
    res.nLayer = (if (prof.map Row.thk).getLast? = some 0 then prof.length - 1 else prof.length) ∧
    (∃ cols, r.a = .mat cols ∧ cols.length = res.nLayer + 1 ∧ ∀ c ∈ cols, c.length = q.1.length) ∧
    (∃ cols, r.v = .mat cols ∧ cols.length = res.nLayer + 1 ∧ ∀ c ∈ cols, c.length = q.1.length) ∧
    (∃ cols, r.d = .mat cols ∧ cols.length = res.nLayer + 1 ∧ ∀ c ∈ cols, c.length = q.1.length) ∧
    (∃ cols, r.gamma = .mat cols ∧ cols.length = res.nLayer ∧ ∀ c ∈ cols, c.length = q.1.length) ∧
    (∃ cols, r.tau = .mat cols ∧ cols.length = res.nLayer ∧ ∀ c ∈ cols, c.length = q.1.length) := by
  unfold nlPack at h
  cases hc : checkVsFormat (.five prof) with
  | error e =>
    unfold mkProfile at h
    simp only [List.getElem?_cons_zero, bind, Except.bind] at h
    rw [hc] at h
    cases h
  | ok u =>
    have hv : Valid5 prof := (checkVsFormat_five_ok prof).mp hc
    have hv' := convert_valid5 prof .one .gcc hv
    unfold mkProfile at h
    simp only [List.getElem?_cons_zero, bind, Except.bind] at h
    rw [hc] at h
    simp only at h
    rw [if_neg (by decide), if_neg (by decide), if_neg (by simp), finishObj_ok hv'.valid] at h
    simp only [pure, Except.pure, List.set_cons_zero, List.length_singleton, List.cons_append, List.nil_append,
      List.getElem?_cons_succ, List.getElem?_cons_zero] at h
    have hthk : (prof.map (convertRow .one .gcc)).map Row.thk = prof.map Row.thk := by
      rw [List.map_map]; rfl
    rw [hthk, List.length_map] at h
    generalize hn : (if (prof.map Row.thk).getLast? = some 0 then prof.length - 1 else prof.length) = n at h
    cases h1 : checkHist r.a q.1.length (n + 1) with
    | error e => rw [h1] at h; cases h
    | ok _ =>
    cases h2 : checkHist r.v q.1.length (n + 1) with
    | error e => rw [h1, h2] at h; cases h
    | ok _ =>
    cases h3 : checkHist r.d q.1.length (n + 1) with
    | error e => rw [h1, h2, h3] at h; cases h
    | ok _ =>
    cases h4 : checkHist r.tau q.1.length n with
    | error e => rw [h1, h2, h3, h4] at h; cases h
    | ok _ =>
    cases h5 : checkHist r.gamma q.1.length n with
    | error e => rw [h1, h2, h3, h4, h5] at h; cases h
    | ok _ =>
      rw [h1, h2, h3, h4, h5] at h
      simp only at h
      split at h
      · cases h
        exact ⟨hv, rfl, rfl, rfl, rfl, rfl, rfl, rfl, rfl, rfl, checkHist_ok h1, checkHist_ok h2, checkHist_ok h3,
          checkHist_ok h5, checkHist_ok h4⟩
      · cases h

/-! ## The input of the kernel -/

/-- What the kernel is called with in a run that returns. -/
theorem run_kernel {kern : Kernel K} {tf tfs : Rec K → Rec K → Except PyErr T} {i : NlIn K} {op : NlOpts} {anchor : Path}
    {rel : List String} {s s' : St (FC K)} {res : NlRes K T} (hw : WfFs s.fs)
    (h : nonlinearRun kern tf tfs i op anchor rel s = (.ok res, s')) :
    ∃ curves hhG hhX v outs q, i.curves = .ok curves ∧ i.hhG = .ok hhG ∧ i.hhX = .ok hhX ∧ kern v = .ok outs ∧
      (∀ p ∈ nlFiles i curves hhG hhX, v p.1 = some p.2) ∧ (∀ n, (∀ p ∈ nlFiles i curves hhG hhX, n ≠ p.1) → v n = none) ∧
      (∃ c, lastOf outs "node_depth.dat" = some c ∧ toArr c = .ok res.read.zb) ∧
      (∃ c, lastOf outs "layer_depth.dat" = some c ∧ toArr c = .ok res.read.zm) ∧
      (∃ c, lastOf outs "out_a.dat" = some c ∧ toArr c = .ok res.read.a) ∧
      (∃ c, lastOf outs "out_v.dat" = some c ∧ toArr c = .ok res.read.v) ∧
      (∃ c, lastOf outs "out_d.dat" = some c ∧ toArr c = .ok res.read.d) ∧
      (∃ c, lastOf outs "out_gamma.dat" = some c ∧ toArr c = .ok res.read.gamma) ∧
      (∃ c, lastOf outs "out_tau.dat" = some c ∧ toArr c = .ok res.read.tau) ∧
      nlPost tf tfs i.accel res.read = .ok q ∧
      nlPack (nlProfile i.rows) (anchor ++ Spec.runDir s.fs anchor rel) res.read q = .ok res := by
  obtain ⟨s1, curves, hhG, hhX, s2, s3, rq, h1, h2, h3, h4, h5, h6, h7, h8, h9, _⟩ := run_inv h
  have hv : Valid5 i.rows := (checkVsFormat_five_ok i.rows).mp h2
  obtain ⟨s2', k1, k2, k3, k4, k5, _⟩ := run_setup (kern := kern) (tf := tf) (tfs := tfs) (op := op) hw h1 hv h3 h4 h5
  have es : s2' = s2 := by
    have := k1.symm.trans h6
    exact congrArg Prod.snd this
  subst es
  obtain ⟨t1, t2, t3, c1, c2, c3, c4, c5, c6⟩ := inside_ok h7
  obtain ⟨_, hread, _⟩ := pack_inv h9
  generalize hD : anchor ++ Spec.runDir s.fs anchor rel = D at *
  obtain ⟨outs, ho, how⟩ := kernel_ok c2
  obtain ⟨_, r1, r2, r3, r4, r5, r6, r7⟩ := readAll_ok c3
  rw [← hread] at r1 r2 r3 r4 r5 r6 r7
  have hlast := writes_last D outs _ _ how
  have hnone : ∀ n, (∀ p ∈ nlFiles i curves hhG hhX, n ≠ p.1) → (∃ c a, fsGet t1.fs (D ++ [n]) = some (.file c) ∧ toArr c = .ok a) →
      ∃ c, lastOf outs n = some c ∧ fsGet t1.fs (D ++ [n]) = some (.file c) := by
    intro n hn ⟨c, a, hc, _⟩
    have := hlast n
    cases hl : lastOf outs n with
    | some c' => rw [hl] at this; exact ⟨c', rfl, this⟩
    | none =>
      rw [hl] at this
      simp only at this
      rw [k5 n hn] at this
      rw [this] at hc
      cases hc
  have get : ∀ (n : String) (a : Arr K), (∀ p ∈ nlFiles i curves hhG hhX, n ≠ p.1) →
      (∃ c, fsGet t1.fs (D ++ [n]) = some (.file c) ∧ toArr c = .ok a) → ∃ c, lastOf outs n = some c ∧ toArr c = .ok a := by
    intro n a hn ⟨c, hc, ha⟩
    obtain ⟨c', h1, h2⟩ := hnone n hn ⟨c, a, hc, ha⟩
    rw [hc] at h2
    cases h2
    exact ⟨c, h1, ha⟩
  have nm : ∀ n, n ∈ ["node_depth.dat", "layer_depth.dat", "out_a.dat", "out_v.dat", "out_d.dat", "out_gamma.dat", "out_tau.dat"] →
      ∀ p ∈ nlFiles i curves hhG hhX, n ≠ p.1 := by
    intro n hn p hp
    simp only [nlFiles, List.mem_cons, List.not_mem_nil, or_false] at hp hn
    rcases hn with rfl | rfl | rfl | rfl | rfl | rfl | rfl <;> rcases hp with rfl | rfl | rfl | rfl | rfl | rfl | rfl | rfl <;> simp
  refine ⟨curves, hhG, hhX, _, outs, rq.2, h3, h4, h5, ho, ?_, ?_, get _ _ (nm _ (by simp)) r1, get _ _ (nm _ (by simp)) r2,
    get _ _ (nm _ (by simp)) r3, get _ _ (nm _ (by simp)) r4, get _ _ (nm _ (by simp)) r5, get _ _ (nm _ (by simp)) r6,
    get _ _ (nm _ (by simp)) r7, by rw [hread]; exact c5, by rw [hread]; exact h9⟩
  · intro p hp
    unfold kernelView
    simp only
    rw [k4 p hp]
  · intro n hn
    unfold kernelView
    simp only
    rw [k5 n hn]

/-- **C101**: in a run that returns the kernel was started on a directory that held exactly the eight input files:
the profile is the reported one (with densities in g/cm^3), the motion is the input motion, halved if and only if
it is the one of an outcrop, the numbers of layers and of steps in the control file are those of the other two
files, and curves and parameters are the ones of the simulation. -/
theorem C101_input {kern : Kernel K} {tf tfs : Rec K → Rec K → Except PyErr T} {i : NlIn K} {op : NlOpts} {anchor : Path}
    {rel : List String} {s s' : St (FC K)} {res : NlRes K T} (hw : WfFs s.fs)
    (h : nonlinearRun kern tf tfs i op anchor rel s = (.ok res, s')) :
    ∃ v outs P I, kern v = .ok outs ∧
      v "profile.dat" = some (.mat P) ∧ P = res.profile.map fileRow ∧
      v "incident.dat" = some (.mat I) ∧
      (i.boundary = .elastic → I = i.accel.map fun p => [p.1, p.2 / 2]) ∧ (i.boundary = .rigid → I = i.accel.map fun p => [p.1, p.2]) ∧
      v "control.dat" = some (.ctl [30, 10, 30, if i.boundary = .elastic then 1 else 3, P.length - 1, I.length, i.nMat, 120, 50]) ∧
      (∃ c g x, i.curves = .ok c ∧ i.hhG = .ok g ∧ i.hhX = .ok x ∧ v "curve.dat" = some (.mat c) ∧ v "HH_G.dat" = some (.mat g) ∧
        v "HH_x.dat" = some (.mat x)) ∧
      v "NLHH.unix" = some .exe ∧ (∃ t, v "tabk.dat" = some (.mat t) ∧ t.length = 8 ∧ ∀ r ∈ t, r.length = 3) ∧
      ∀ n, v n ≠ none → n ∈ ["NLHH.unix", "tabk.dat", "control.dat", "profile.dat", "incident.dat", "curve.dat", "HH_G.dat", "HH_x.dat"] := by
  obtain ⟨c, g, x, v, outs, q, hc, hg, hx, hk, hv1, hv2, _, _, _, _, _, _, _, _, hp⟩ := run_kernel hw h
  obtain ⟨_, _, _, _, _, _, _, hprof, _⟩ := pack_inv hp
  have hin : ∀ p, p ∈ nlFiles i c g x → v p.1 = some p.2 := hv1
  refine ⟨v, outs, (nlProfile i.rows).map fun r => [r.thk, r.vs, r.xi, r.rho, r.mat],
    (nlIncident i.boundary i.accel).map fun p => [p.1, p.2], hk, hin ("profile.dat", _) (by simp [nlFiles]), ?_,
    hin ("incident.dat", _) (by simp [nlFiles]), ?_, ?_, ?_, ⟨c, g, x, hc, hg, hx, hin ("curve.dat", _) (by simp [nlFiles]),
    hin ("HH_G.dat", _) (by simp [nlFiles]), hin ("HH_x.dat", _) (by simp [nlFiles])⟩, hin ("NLHH.unix", _) (by simp [nlFiles]),
    ⟨tabkRows.map fun r => r.map fun (x : Int) => (x : K) / 10 ^ 8, hin ("tabk.dat", _) (by simp [nlFiles]), by simp [tabkRows],
      by simp [tabkRows]⟩, ?_⟩
  · rw [hprof, List.map_map]
    apply List.map_congr_left
    intro r _
    simp [fileRow, convertRow]
  · intro e; rw [e]; simp [nlIncident, Function.comp_def]
  · intro e; rw [e]; simp [nlIncident]
  · have := hin ("control.dat", .ctl [30, 10, 30, nBound i.boundary, (nlProfile i.rows).length - 1, i.accel.length, i.nMat, 120, 50])
      (by simp [nlFiles])
    rw [this]
    cases i.boundary <;> simp [nBound, nlIncident]
  · intro n hn
    by_contra hc'
    refine hn (hv2 n ?_)
    intro p hp' e
    apply hc'
    rw [e]
    simp only [nlFiles, List.mem_cons, List.not_mem_nil, or_false] at hp'
    rcases hp' with rfl | rfl | rfl | rfl | rfl | rfl | rfl | rfl <;> simp

/-- **C101** (profile): every row of the reported profile comes from a row of the input with the same velocity,
damping, density and material; soil layers are not thicker than a tenth of a wavelength at 22.5 Hz, only the half
space has thickness zero; and every input row is there. -/
theorem C101_profile {kern : Kernel K} {tf tfs : Rec K → Rec K → Except PyErr T} {i : NlIn K} {op : NlOpts} {anchor : Path}
    {rel : List String} {s s' : St (FC K)} {res : NlRes K T} (hw : WfFs s.fs)
    (h : nonlinearRun kern tf tfs i op anchor rel s = (.ok res, s')) :
    (∀ q ∈ res.profile, ∃ r ∈ i.rows, q.vs = r.vs ∧ q.xi = r.xi ∧ q.rho = r.rho ∧ q.mat = r.mat ∧
      ((q.thk = 0 ∧ r.thk = 0) ∨ (0 < q.thk ∧ q.thk ≤ q.vs / 225 ∧ 0 < r.thk))) ∧
    (∀ r ∈ i.rows, ∃ q ∈ res.profile, q.vs = r.vs ∧ q.xi = r.xi ∧ q.rho = r.rho ∧ q.mat = r.mat) := by
  obtain ⟨c, g, x, v, outs, q, hc, hg, hx, hk, hv1, hv2, _, _, _, _, _, _, _, _, hp⟩ := run_kernel hw h
  obtain ⟨_, _, _, _, _, _, _, hprof, _⟩ := pack_inv hp
  rw [profile_back] at hprof
  obtain ⟨s1, _, _, _, _, _, _, _, h2, _⟩ := run_inv h
  have hv : Valid5 i.rows := (checkVsFormat_five_ok i.rows).mp h2
  rw [hprof]
  have hlayer : ∀ r ∈ i.rows, 0 < r.thk → (∀ y ∈ stratifyLayer (toL r), (ofL y).vs = r.vs ∧ (ofL y).xi = r.xi ∧ (ofL y).rho = r.rho ∧
      (ofL y).mat = r.mat ∧ 0 < (ofL y).thk ∧ (ofL y).thk ≤ (ofL y).vs / 225) ∧ stratifyLayer (toL r) ≠ [] := by
    intro r hr ht
    obtain ⟨a, b, _, _⟩ := stratifyLayer_spec (toL r) ht (hv.pos r hr).1
    refine ⟨fun y hy => ?_, a⟩
    obtain ⟨b1, b2, b3, b4⟩ := b y hy
    refine ⟨b1, ?_, ?_, ?_, b3, ?_⟩
    · simp [ofL, b2, toL]
    · simp [ofL, b2, toL]
    · simp [ofL, b2, toL]
    · simp only [ofL]; rw [b1]; exact b4
  rcases List.eq_nil_or_concat i.rows with hnil | ⟨l, b, hlb⟩
  · exact absurd hnil hv.nonempty
  · rw [List.concat_eq_append] at hlb
    have hpos : ∀ r ∈ l, 0 < r.thk := fun r hr => hv.thk_pos r (by rw [hlb, List.dropLast_concat]; exact hr)
    have hbn : 0 ≤ b.thk := hv.thk_nonneg b (by rw [hlb]; simp)
    unfold stratify
    rw [hlb, List.map_append, List.map_cons, List.map_nil, List.getLast?_concat]
    simp only
    by_cases hb : b.thk = 0
    · rw [if_pos (show (toL b).thk = 0 from hb), List.dropLast_concat, List.map_append]
      constructor
      · intro y hy
        rcases List.mem_append.mp hy with hy | hy
        · obtain ⟨z, hz, rfl⟩ := List.mem_map.mp hy
          obtain ⟨w, hw', hz⟩ := List.mem_flatMap.mp hz
          obtain ⟨r, hr, rfl⟩ := List.mem_map.mp hw'
          obtain ⟨b1, b2, b3, b4, b5, b6⟩ := (hlayer r (by rw [hlb]; simp [hr]) (hpos r hr)).1 z hz
          exact ⟨r, by simp [hr], b1, b2, b3, b4, .inr ⟨b5, b6, hpos r hr⟩⟩
        · simp only [List.map_cons, List.map_nil, List.mem_singleton] at hy
          subst hy
          exact ⟨b, by simp, rfl, rfl, rfl, rfl, .inl ⟨hb, hb⟩⟩
      · intro r hr
        rcases List.mem_append.mp hr with hr | hr
        · obtain ⟨a1, a2⟩ := hlayer r (by rw [hlb]; simp [hr]) (hpos r hr)
          obtain ⟨y, hy⟩ := List.exists_mem_of_ne_nil _ a2
          obtain ⟨b1, b2, b3, b4, _, _⟩ := a1 y hy
          exact ⟨ofL y, List.mem_append_left _ (List.mem_map_of_mem (List.mem_flatMap.mpr ⟨toL r, List.mem_map_of_mem hr, hy⟩)), b1, b2, b3, b4⟩
        · simp only [List.mem_singleton] at hr
          subst hr
          exact ⟨ofL (toL r), by simp, rfl, rfl, rfl, rfl⟩
    · rw [if_neg (show ¬ (toL b).thk = 0 from hb)]
      have hpos' : ∀ r ∈ l ++ [b], 0 < r.thk := by
        intro r hr
        rcases List.mem_append.mp hr with hr | hr
        · exact hpos r hr
        · simp only [List.mem_singleton] at hr
          subst hr
          exact lt_of_le_of_ne hbn (Ne.symm hb)
      have he : l.map toL ++ [toL b] = (l ++ [b]).map toL := by simp
      rw [he]
      constructor
      · intro y hy
        obtain ⟨z, hz, rfl⟩ := List.mem_map.mp hy
        obtain ⟨w, hw', hz⟩ := List.mem_flatMap.mp hz
        obtain ⟨r, hr, rfl⟩ := List.mem_map.mp hw'
        obtain ⟨b1, b2, b3, b4, b5, b6⟩ := (hlayer r (by rw [hlb]; exact hr) (hpos' r hr)).1 z hz
        exact ⟨r, hr, b1, b2, b3, b4, .inr ⟨b5, b6, hpos' r hr⟩⟩
      · intro r hr
        obtain ⟨a1, a2⟩ := hlayer r (by rw [hlb]; exact hr) (hpos' r hr)
        obtain ⟨y, hy⟩ := List.exists_mem_of_ne_nil _ a2
        obtain ⟨b1, b2, b3, b4, _, _⟩ := a1 y hy
        exact ⟨ofL y, List.mem_map_of_mem (List.mem_flatMap.mpr ⟨toL r, List.mem_map_of_mem hr, hy⟩), b1, b2, b3, b4⟩

/-! ## The results -/

/-- A two-dimensional table: at least two rows and not exactly one column, all rows of the same length, and the
columns are the columns of the file. -/
theorem toArr_mat {c : FC K} {cols : List (List K)} (h : toArr c = .ok (.mat cols)) :
    ∃ rows, c = .mat rows ∧ 2 ≤ rows.length ∧ cols.length ≠ 1 ∧ (∀ r ∈ rows, r.length = cols.length) ∧
      ∀ (j : Nat) (col : List K), cols[j]? = some col → col.length = rows.length ∧ ∀ (k : Nat) r, rows[k]? = some r → col[k]? = r[j]? := by
  unfold toArr at h
  split at h
  · rename_i rows
    split at h
    · cases h
    · rename_i r rs
      split at h
      · cases h
      · rename_i hall
        have hall' : ∀ q ∈ rs, q.length = r.length := by
          intro q hq
          rw [Bool.not_eq_false] at hall
          have := List.all_eq_true.mp hall q hq
          simpa using this
        split at h
        · cases h
        · cases h
        · cases h
        · rename_i y ys hne
          have he : Except.ok (α := Arr K) (ε := PyErr) (.mat (colsOf (r :: y :: ys) r.length)) = .ok (.mat cols) := h
          have hcols : cols = colsOf (r :: y :: ys) r.length := by
            have := Except.ok.inj he
            exact (Arr.mat.inj this).symm
          have hlen : cols.length = r.length := by rw [hcols]; simp [colsOf]
          refine ⟨r :: y :: ys, rfl, by simp, ?_, ?_, ?_⟩
          · rw [hlen]
            intro h1
            obtain ⟨x, hx⟩ := List.length_eq_one_iff.mp h1
            first
              | exact hne x hx
              | exact hne _ _ _ rfl hx
              | exact hne _ _ rfl hx
          · intro q hq
            rw [hlen]
            rcases List.mem_cons.mp hq with rfl | hq
            · rfl
            · exact hall' q hq
          · intro j col hj
            rw [hcols] at hj
            unfold colsOf at hj
            rw [List.getElem?_map] at hj
            obtain ⟨j', hj', hcol⟩ := Option.map_eq_some_iff.mp hj
            have hjlt : j < r.length := by
              by_contra hc
              rw [List.getElem?_eq_none (by simp; omega)] at hj'
              cases hj'
            rw [List.getElem?_range hjlt] at hj'
            cases hj'
            subst hcol
            refine ⟨by simp, ?_⟩
            intro k q hq
            rw [List.getElem?_map, hq]
            simp only [Option.map_some]
            have hqm : q ∈ r :: y :: ys := List.mem_of_getElem? hq
            have hql : q.length = r.length := by
              rcases List.mem_cons.mp hqm with rfl | hqm
              · rfl
              · exact hall' q hqm
            rw [List.getD_eq_getElem?_getD, List.getElem?_eq_getElem (by omega)]
            rfl
  · cases h

/-- Inversion of the post-processing. -/
theorem post_inv {tf tfs : Rec K → Rec K → Except PyErr T} {x : Rec K} {r : NlRead K}
    {q : Rec K × List (K × K × K × K) × List (K × K × K) × T × T} (h : nlPost tf tfs x r = .ok q) :
    ∃ ma mv md mg mt zb zm a0, colMax r.a = .ok ma ∧ colMax r.v = .ok mv ∧ colMax r.d = .ok md ∧ colMax r.gamma = .ok mg ∧
      colMax r.tau = .ok mt ∧ depthArr r.zb = .ok zb ∧ depthArr r.zm = .ok zm ∧ nlStack4 zb ma mv md = .ok q.2.1 ∧
      nlStack3 zm mg mt = .ok q.2.2.1 ∧ firstCol r.a = .ok a0 ∧ colStack (x.map Prod.fst) a0 = .ok q.1 ∧
      tf x q.1 = .ok q.2.2.2.1 ∧ tfs x q.1 = .ok q.2.2.2.2 := by
  unfold nlPost at h
  cases h1 : colMax r.a with
  | error e => rw [h1] at h; cases h
  | ok ma =>
  cases h2 : colMax r.v with
  | error e => simp only [h1, h2, bind, Except.bind] at h; cases h
  | ok mv =>
  cases h3 : colMax r.d with
  | error e => simp only [h1, h2, h3, bind, Except.bind] at h; cases h
  | ok md =>
  cases h4 : colMax r.gamma with
  | error e => simp only [h1, h2, h3, h4, bind, Except.bind] at h; cases h
  | ok mg =>
  cases h5 : colMax r.tau with
  | error e => simp only [h1, h2, h3, h4, h5, bind, Except.bind] at h; cases h
  | ok mt =>
  cases h6 : depthArr r.zb with
  | error e => simp only [h1, h2, h3, h4, h5, h6, bind, Except.bind] at h; cases h
  | ok zb =>
  cases h7 : depthArr r.zm with
  | error e => simp only [h1, h2, h3, h4, h5, h6, h7, bind, Except.bind] at h; cases h
  | ok zm =>
  simp only [h1, h2, h3, h4, h5, h6, h7, bind, Except.bind] at h
  cases h8 : nlStack4 zb ma mv md with
  | error e => simp only [h8] at h; cases h
  | ok avd =>
  cases h9 : nlStack3 zm mg mt with
  | error e => simp only [h8, h9] at h; cases h
  | ok gt =>
  cases h10 : firstCol r.a with
  | error e => simp only [h8, h9, h10] at h; cases h
  | ok a0 =>
  simp only [h8, h9, h10] at h
  cases h11 : colStack (x.map Prod.fst) a0 with
  | error e => simp only [h11] at h; cases h
  | ok surf =>
  simp only [h11] at h
  cases h12 : tf x surf with
  | error e => simp only [h12] at h; cases h
  | ok t1 =>
  cases h13 : tfs x surf with
  | error e => simp only [h12, h13] at h; cases h
  | ok t2 =>
    simp only [h12, h13] at h
    cases h
    exact ⟨ma, mv, md, mg, mt, zb, zm, a0, rfl, rfl, rfl, rfl, rfl, rfl, rfl, h8, h9, rfl, h11, h12, h13⟩

/-- **C102**: in a run that returns, the reported histories are the tables that the kernel wrote last, with one
column per interface or layer of the reported profile and one row per step of the input; the surface motion is the
first column of the accelerations at the times of the input; the maxima are those of the columns, at the depths
written by the kernel; and both transfer functions are the ones from the input motion to the surface motion. -/
theorem C102_results {kern : Kernel K} {tf tfs : Rec K → Rec K → Except PyErr T} {i : NlIn K} {op : NlOpts} {anchor : Path}
    {rel : List String} {s s' : St (FC K)} {res : NlRes K T} (hw : WfFs s.fs)
    (h : nonlinearRun kern tf tfs i op anchor rel s = (.ok res, s')) :
    ∃ v outs A V D G τ zb zm, kern v = .ok outs ∧
      (res.read.a = .mat A ∧ A.length = res.nLayer + 1 ∧ ∃ c, lastOf outs "out_a.dat" = some c ∧ toArr c = .ok (.mat A)) ∧
      (res.read.v = .mat V ∧ V.length = res.nLayer + 1 ∧ ∃ c, lastOf outs "out_v.dat" = some c ∧ toArr c = .ok (.mat V)) ∧
      (res.read.d = .mat D ∧ D.length = res.nLayer + 1 ∧ ∃ c, lastOf outs "out_d.dat" = some c ∧ toArr c = .ok (.mat D)) ∧
      (res.read.gamma = .mat G ∧ G.length = res.nLayer ∧ ∃ c, lastOf outs "out_gamma.dat" = some c ∧ toArr c = .ok (.mat G)) ∧
      (res.read.tau = .mat τ ∧ τ.length = res.nLayer ∧ ∃ c, lastOf outs "out_tau.dat" = some c ∧ toArr c = .ok (.mat τ)) ∧
      (∀ col ∈ A ++ V ++ D ++ G ++ τ, col.length = i.accel.length) ∧
      res.surface.map Prod.fst = i.accel.map Prod.fst ∧ A[0]? = some (res.surface.map Prod.snd) ∧
      depthArr res.read.zb = .ok zb ∧ depthArr res.read.zm = .ok zm ∧
      (∃ c, lastOf outs "node_depth.dat" = some c ∧ toArr c = .ok res.read.zb) ∧
      (∃ c, lastOf outs "layer_depth.dat" = some c ∧ toArr c = .ok res.read.zm) ∧
      res.maxAvd.map Prod.fst = zb ∧ (res.maxAvd.map fun p => p.2.1) = A.map maxAbs ∧
      (res.maxAvd.map fun p => p.2.2.1) = V.map maxAbs ∧ (res.maxAvd.map fun p => p.2.2.2) = D.map maxAbs ∧
      res.maxGt.map Prod.fst = zm ∧ (res.maxGt.map fun p => p.2.1) = G.map maxAbs ∧ (res.maxGt.map fun p => p.2.2) = τ.map maxAbs ∧
      tf i.accel res.surface = .ok res.tf ∧ tfs i.accel res.surface = .ok res.tfs := by
  obtain ⟨_, _, _, v, outs, q, _, _, _, hk, _, _, l1, l2, l3, l4, l5, l6, l7, hpost, hp⟩ := run_kernel hw h
  obtain ⟨_, _, e1, e2, e3, e4, e5, hprof, _, hn, ⟨A, a1, a2, a3⟩, ⟨V, v1, v2, v3⟩, ⟨D, d1, d2, d3⟩, ⟨G, g1, g2, g3⟩, ⟨τ, t1, t2, t3⟩⟩ := pack_inv hp
  obtain ⟨ma, mv, md, mg, mt, zb, zm, a0, p1, p2, p3, p4, p5, p6, p7, p8, p9, p10, p11, p12, p13⟩ := post_inv hpost
  rw [a1] at p1 p10 l3
  rw [v1] at p2 l4
  rw [d1] at p3 l5
  rw [g1] at p4 l6
  rw [t1] at p5 l7
  simp only [colMax] at p1 p2 p3 p4 p5
  cases p1; cases p2; cases p3; cases p4; cases p5
  obtain ⟨s1, s2⟩ := colStack_ok p11
  have hlen : q.1.length = i.accel.length := by
    have := congrArg List.length s1
    simpa using this
  have hA0 : A[0]? = some (q.1.map Prod.snd) := by
    cases A with
    | nil => cases p10
    | cons c cs =>
      have : c = a0 := Except.ok.inj p10
      rw [s2, ← this]
      rfl
  unfold nlStack4 at p8
  by_cases c4 : (A.map maxAbs).length = zb.length ∧ (V.map maxAbs).length = zb.length ∧ (D.map maxAbs).length = zb.length
  swap
  · rw [if_neg c4] at p8; cases p8
  rw [if_pos c4] at p8
  unfold nlStack3 at p9
  by_cases c3 : (G.map maxAbs).length = zm.length ∧ (τ.map maxAbs).length = zm.length
  swap
  · rw [if_neg c3] at p9; cases p9
  rw [if_pos c3] at p9
  have q2 := Except.ok.inj p8
  have q3 := Except.ok.inj p9
  obtain ⟨c41, c42, c43⟩ := c4
  obtain ⟨c31, c32⟩ := c3
  have z1 : zb.zip ((A.map maxAbs).zip ((V.map maxAbs).zip (D.map maxAbs))) = res.maxAvd := by rw [e2]; exact q2
  have z2 : zm.zip ((G.map maxAbs).zip (τ.map maxAbs)) = res.maxGt := by rw [e3]; exact q3
  refine ⟨v, outs, A, V, D, G, τ, zb, zm, hk, ⟨a1, a2, l3⟩, ⟨v1, v2, l4⟩, ⟨d1, d2, l5⟩, ⟨g1, g2, l6⟩, ⟨t1, t2, l7⟩, ?_,
    by rw [e1]; exact s1, by rw [e1]; exact hA0, p6, p7, l1, l2, ?_, ?_, ?_, ?_, ?_, ?_, ?_, ?_, ?_⟩
  · intro col hc
    rw [← hlen]
    simp only [List.mem_append] at hc
    rcases hc with (((hc | hc) | hc) | hc) | hc
    · exact a3 col hc
    · exact v3 col hc
    · exact d3 col hc
    · exact g3 col hc
    · exact t3 col hc
  · rw [← z1, List.map_fst_zip (by simp only [List.length_zip]; omega)]
  · rw [← z1]
    have : (fun p : K × K × K × K => p.2.1) = Prod.fst ∘ Prod.snd := rfl
    rw [this, ← List.map_map, List.map_snd_zip (by simp only [List.length_zip]; omega), List.map_fst_zip (by simp only [List.length_zip]; omega)]
  · rw [← z1]
    have : (fun p : K × K × K × K => p.2.2.1) = Prod.fst ∘ Prod.snd ∘ Prod.snd := rfl
    rw [this, ← List.map_map, ← List.map_map, List.map_snd_zip (by simp only [List.length_zip]; omega), List.map_snd_zip (by simp only [List.length_zip]; omega),
      List.map_fst_zip (by omega)]
  · rw [← z1]
    have : (fun p : K × K × K × K => p.2.2.2) = Prod.snd ∘ Prod.snd ∘ Prod.snd := rfl
    rw [this, ← List.map_map, ← List.map_map, List.map_snd_zip (by simp only [List.length_zip]; omega), List.map_snd_zip (by simp only [List.length_zip]; omega),
      List.map_snd_zip (by omega)]
  · rw [← z2, List.map_fst_zip (by simp only [List.length_zip]; omega)]
  · rw [← z2]
    have : (fun p : K × K × K => p.2.1) = Prod.fst ∘ Prod.snd := rfl
    rw [this, ← List.map_map, List.map_snd_zip (by simp only [List.length_zip]; omega), List.map_fst_zip (by omega)]
  · rw [← z2]
    have : (fun p : K × K × K => p.2.2) = Prod.snd ∘ Prod.snd := rfl
    rw [this, ← List.map_map, List.map_snd_zip (by simp only [List.length_zip]; omega), List.map_snd_zip (by omega)]
  · rw [e1, e4]; exact p12
  · rw [e1, e5]; exact p13

/-- **C102** (tables): the columns of a reported history are the columns of the file. -/
theorem C102_tables {c : FC K} {cols : List (List K)} (h : toArr c = .ok (.mat cols)) :
    ∃ rows, c = .mat rows ∧ (∀ r ∈ rows, r.length = cols.length) ∧
      ∀ (j : Nat) (col : List K), cols[j]? = some col → col.length = rows.length ∧ ∀ (k : Nat) r, rows[k]? = some r → col[k]? = r[j]? := by
  obtain ⟨rows, h1, _, _, h2, h3⟩ := toArr_mat h
  exact ⟨rows, h1, h2, h3⟩

/-- **C102** (number of layers): the number of layers is the number of rows of the profile without the half space. -/
theorem C102_layers {kern : Kernel K} {tf tfs : Rec K → Rec K → Except PyErr T} {i : NlIn K} {op : NlOpts} {anchor : Path}
    {rel : List String} {s s' : St (FC K)} {res : NlRes K T} (hw : WfFs s.fs)
    (h : nonlinearRun kern tf tfs i op anchor rel s = (.ok res, s')) :
    res.nLayer = (res.profile.filter fun r => decide (r.thk ≠ 0)).length := by
  obtain ⟨_, _, _, v, outs, q, _, _, _, hk, _, _, _, _, _, _, _, _, _, _, hp⟩ := run_kernel hw h
  obtain ⟨hv, _, _, _, _, _, _, hprof, _, hn, _⟩ := pack_inv hp
  have hv' := convert_valid5 (nlProfile i.rows) .one .gcc hv
  rw [hn, hprof]
  have hthk : (nlProfile i.rows).map Row.thk = ((nlProfile i.rows).map (convertRow .one .gcc)).map Row.thk := by
    rw [List.map_map]; rfl
  have hlen : (nlProfile i.rows).length = ((nlProfile i.rows).map (convertRow .one .gcc)).length := by simp
  rw [hthk, hlen]
  generalize (nlProfile i.rows).map (convertRow .one .gcc) = P at *
  rcases List.eq_nil_or_concat P with hnil | ⟨l, b, rfl⟩
  · exact absurd hnil hv'.nonempty
  · rw [List.concat_eq_append] at *
    have hl : l.filter (fun r => decide (r.thk ≠ 0)) = l := by
      rw [List.filter_eq_self]
      intro r hr
      have := hv'.thk_pos r (by rw [List.dropLast_concat]; exact hr)
      simp [ne_of_gt this]
    rw [List.filter_append, hl]
    simp only [List.map_append, List.map_cons, List.map_nil, List.getLast?_concat, List.length_append, List.length_singleton]
    by_cases hb : b.thk = 0
    · simp [hb]
    · simp [hb]

/-- **C102 is violated** for a single soil layer that needs no subdivision: whatever the kernel writes, the run
does not return, since a table with one column is read as a one-dimensional array. -/
theorem C102_one_layer_violated {kern : Kernel K} {tf tfs : Rec K → Rec K → Except PyErr T} {i : NlIn K} {op : NlOpts} {anchor : Path}
    {rel : List String} {s s' : St (FC K)} {res : NlRes K T} (hw : WfFs s.fs) (r b : Row K) (hrows : i.rows = [r, b]) (hb : b.thk = 0)
    (hr : r.thk ≤ r.vs / 225) : nonlinearRun kern tf tfs i op anchor rel s ≠ (.ok res, s') := by
  intro h
  obtain ⟨_, _, _, v, outs, q, _, _, _, hk, _, _, _, _, _, _, _, _, ⟨c, hc1, hc2⟩, hpost, hp⟩ := run_kernel hw h
  obtain ⟨_, _, _, _, _, _, _, _, _, hn, _, _, _, _, ⟨τ, t1, t2, t3⟩⟩ := pack_inv hp
  have hprof : nlProfile i.rows = [{ r with rho := r.rho / 1000 }, { b with rho := b.rho / 1000 }] := by
    simp [nlProfile, hrows, stratify, toL, ofL, hb, stratifyLayer, hr]
  rw [hprof] at hn
  simp only [List.map_cons, List.map_nil, hb, List.length_cons, List.length_nil] at hn
  rw [t1] at hc2
  obtain ⟨rows, _, _, h1, _⟩ := toArr_mat hc2
  apply h1
  rw [t2, hn]
  simp

/-- **C102 is violated** for a profile without half space: if the kernel writes as many columns of accelerations as
the control file announces (one more than the number of layers), the run does not return. -/
theorem C102_nohalf_violated {kern : Kernel K} {tf tfs : Rec K → Rec K → Except PyErr T} {i : NlIn K} {op : NlOpts} {anchor : Path}
    {rel : List String} {s s' : St (FC K)} {res : NlRes K T} (hw : WfFs s.fs)
    (hlast : ∀ r, (nlProfile i.rows).getLast? = some r → r.thk ≠ 0)
    (hkern : ∀ v outs l rows, kern v = .ok outs → v "control.dat" = some (.ctl l) → lastOf outs "out_a.dat" = some (.mat rows) →
      ∀ r ∈ rows, r.length = l.getD 4 0 + 1) :
    nonlinearRun kern tf tfs i op anchor rel s ≠ (.ok res, s') := by
  intro h
  obtain ⟨c, g, x, v, outs, q, _, _, _, hk, hv1, _, _, _, ⟨ca, hc1, hc2⟩, _, _, _, _, hpost, hp⟩ := run_kernel hw h
  obtain ⟨hv, _, _, _, _, _, _, _, _, hn, ⟨A, a1, a2, a3⟩, _⟩ := pack_inv hp
  rw [a1] at hc2
  obtain ⟨rows, e1, e2, _, e3, _⟩ := toArr_mat hc2
  subst e1
  have hctl := hv1 ("control.dat", .ctl [30, 10, 30, nBound i.boundary, (nlProfile i.rows).length - 1, i.accel.length, i.nMat, 120, 50])
    (by simp [nlFiles])
  have := hkern v outs _ rows hk hctl hc1
  obtain ⟨r, hr⟩ := List.exists_mem_of_length_pos (by omega : 0 < rows.length)
  have h1 := this r hr
  have h2 := e3 r hr
  have hne : ((nlProfile i.rows).map Row.thk).getLast? ≠ some 0 := by
    rw [List.getLast?_map]
    intro hc
    obtain ⟨r, hr, h0⟩ := Option.map_eq_some_iff.mp hc
    exact hlast r hr h0
  rw [if_neg hne] at hn
  have hpos : 0 < (nlProfile i.rows).length := List.length_pos_iff.mpr hv.nonempty
  simp at h1
  omega

/-! ## A concrete run -/

/-- A motion of two steps and a profile of two layers on a half space. -/
def exNl : NlIn ℚ :=
  { rows := [⟨1, 450, 1/50, 1800, 1⟩, ⟨1, 450, 1/50, 1900, 2⟩, ⟨0, 900, 1/100, 2000, 0⟩], accel := [(0, 1), (1, 2)], boundary := .elastic
    nMat := 2, curves := .ok [], hhG := .ok [], hhX := .ok [] }

/-- A kernel. -/
def exKernel : Kernel ℚ := fun v =>
  match v "incident.dat" with
  | some (.mat [[_, a], [_, b]]) => .ok [("node_depth.dat", .mat [[0], [1], [2]]), ("layer_depth.dat", .mat [[1/2], [3/2]]),
      ("out_a.dat", .mat [[a, a, a], [b, b, b]]), ("out_v.dat", .mat [[1, 2, 3], [4, 5, 6]]), ("out_d.dat", .mat [[1, 2, 3], [4, 5, -6]]),
      ("out_gamma.dat", .mat [[1, 2], [3, 4]]), ("out_tau.dat", .mat [[1, 2], [3, 4]])]
  | _ => .error .other

/-- A run in an empty directory `out` that existed before. -/
def exNlRun : Except PyErr (NlRes ℚ Unit) × St (FC ℚ) :=
  nonlinearRun exKernel (fun _ _ => .ok ()) (fun _ _ => .ok ()) exNl ⟨false, false, false, false, true, "m"⟩ ["home"] ["out", "sim"]
    ⟨[(["home"], .dir), (["home", "out"], .dir)], ["home"]⟩

/-- Its results. -/
example : exNlRun.1.toOption.map NlRes.surface = some [(0, 1/2), (1, 1)] := by decide +kernel

example : exNlRun.1.toOption.map NlRes.maxAvd = some [(0, 1, 4, 4), (1, 1, 5, 5), (2, 1, 6, 6)] := by decide +kernel

example : exNlRun.1.toOption.map NlRes.maxGt = some [(1/2, 3, 3), (3/2, 4, 4)] := by decide +kernel

/-- The directory `out` is gone. -/
example : exNlRun.2.fs.map Prod.fst = [["home"]] ∧ exNlRun.2.cwd = ["home"] := by decide +kernel

/-- A run in which the kernel fails leaves the process in the simulation directory. -/
example :
    (nonlinearRun (T := Unit) (fun _ => .error .other) (fun _ _ => .ok ()) (fun _ _ => .ok ()) exNl ⟨false, false, false, false, true, "m"⟩ ["home"] ["sim"]
      ⟨[(["home"], .dir)], ["home"]⟩).2.cwd = ["home", "sim"] := by
  decide +kernel

end Verif
