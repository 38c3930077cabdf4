import Verif.Model.ResultFiles
import Verif.Model.VsProfile
import Verif.Model.Motion
import Verif.Model.Transfer

/-!
Model of `Nonlinear_Simulation.run` (class_simulation.py L508-795) on Linux: directory handling, the files
handed to the Fortran kernel, what is made of the files it leaves, and packaging of the results.

The kernel is an arbitrary function from the files it finds in the working directory to the files it writes
there.  Parameters: the dummy curves and serialised parameters (which may raise), and the two calls of
`calc_transfer_function`.  `os.chmod` is not modelled; console output is in `Model/Console`.  The two parameter tables are
serialised before the first file is written (in the code between the writes), which matters only for the files
left behind if this raises.
-/

namespace Verif

variable {K : Type}

/-- Contents of files. -/
inductive FC (K : Type) where
  | exe
  | ctl (l : List Nat)
  | mat (rows : List (List K))
  | res (kind : String)
  deriving DecidableEq

/-- An array read by `np.genfromtxt`. -/
inductive Arr (K : Type) where
  | scalar (x : K)
  | vec (l : List K)
  | mat (cols : List (List K))
  deriving DecidableEq

/-- Columns of a table. -/
def colsOf [Zero K] (rows : List (List K)) (w : Nat) : List (List K) :=
  (List.range w).map fun j => rows.map fun r => r.getD j 0

/-- `np.genfromtxt`: rows of different lengths raise; a table with one row or one column becomes
one-dimensional, a single number zero-dimensional.  The empty file gives an empty array. -/
def toArr [Zero K] : FC K → Except PyErr (Arr K)
  | .mat rows =>
    match rows with
    | [] => .ok (.vec [])
    | r :: rs =>
      if (rs.all fun q => decide (q.length = r.length)) = false then .error .valueError
      else match rs, r with
        | [], [x] => .ok (.scalar x)
        | [], _ => .ok (.vec r)
        | _ :: _, [_] => .ok (.vec (rows.map fun q => q.getD 0 0))
        | _ :: _, _ => .ok (.mat (colsOf rows r.length))
  | _ => .error .valueError

variable [Field K] [LinearOrder K]

/-- `np.max(np.abs(x), axis=0).T` as an array of at most one dimension (numpy lets `axis=0` pass for a single number, and
`np.column_stack` makes it a column of length one). -/
def colMax : Arr K → Except PyErr (List K)
  | .scalar x => .ok [maxAbs [x]]
  | .vec [] => .error .valueError
  | .vec l => .ok [maxAbs l]
  | .mat cols => .ok (cols.map maxAbs)

/-- A depth array: a two-dimensional one is outside of the model. -/
def depthArr : Arr K → Except PyErr (List K)
  | .scalar x => .ok [x]
  | .vec l => .ok l
  | .mat _ => .error .other

/-- `out_a[:, 0]`. -/
def firstCol : Arr K → Except PyErr (List K)
  | .mat (c :: _) => .ok c
  | _ => .error .indexError

/-- `np.column_stack` of four arrays, as in the every-layer solvers. -/
def nlStack4 (p q r s : List K) : Except PyErr (List (K × K × K × K)) :=
  if q.length = p.length ∧ r.length = p.length ∧ s.length = p.length then .ok (p.zip (q.zip (r.zip s)))
  else .error .valueError

/-- `np.column_stack` of three arrays. -/
def nlStack3 (p q r : List K) : Except PyErr (List (K × K × K)) :=
  if q.length = p.length ∧ r.length = p.length then .ok (p.zip (q.zip r)) else .error .valueError

/-- Five-column profile to the form of `stratify` and back. -/
def toL (r : Row K) : LRow K (K × K × K) := ⟨r.thk, r.vs, (r.xi, r.rho, r.mat)⟩
/-- Back. -/
def ofL (r : LRow K (K × K × K)) : Row K := ⟨r.thk, r.vs, r.rest.1, r.rest.2.1, r.rest.2.2⟩

/-- class_simulation.py L614-615: re-discretised profile with densities in g/cm^3. -/
def nlProfile [FloorRing K] (rows : List (Row K)) : List (Row K) :=
  ((stratify (rows.map toL)).map ofL).map fun r => { r with rho := r.rho / 1000 }

/-- class_simulation.py L619-622: outcrop motions are halved. -/
def nlIncident (b : Boundary) (x : Rec K) : Rec K :=
  match b with
  | .elastic => x.map fun p => (p.1, p.2 / 2)
  | .rigid => x

/-- class_simulation.py L571. -/
def nBound : Boundary → Nat
  | .rigid => 3
  | .elastic => 1

/-- class_simulation.py L600-611: the table of coefficients, here scaled by 10^8. -/
def tabkRows : List (List Int) :=
  [[172333, 1669580, 8987580], [180701, 3816440, 6846350], [538887, 984666, 9670520], [1993220, -1368030, 12017200],
   [8498330, -2851250, 13072800], [40933500, -5373090, 13874600], [205951000, -6650350, 14070500],
   [1326290000, -13369600, 21464700]]

/-- What the simulation object and the calls of other modules contribute. -/
structure NlIn (K : Type) where
  rows : List (Row K)
  accel : Rec K
  boundary : Boundary
  nMat : Nat
  curves : Except PyErr (List (List K))
  hhG : Except PyErr (List (List K))
  hhX : Except PyErr (List (List K))

/-- The external kernel: from the files in the working directory to files written there. -/
abbrev Kernel (K : Type) := (String → Option (FC K)) → Except PyErr (List (String × FC K))

/-- The files in the working directory. -/
def kernelView (s : St (FC K)) : String → Option (FC K) := fun n =>
  match fsGet s.fs (s.cwd ++ [n]) with
  | some (.file c) => some c
  | _ => none

/-- `subprocess.run` of the kernel in the working directory. -/
def opKernel (kern : Kernel K) : Op (FC K) Unit := fun s =>
  match kern (kernelView s) with
  | .error e => (.error e, s)
  | .ok outs => opForEach (fun p => opWrite (s.cwd ++ [p.1]) p.2) outs s

/-- class_simulation.py L638-684: the files handed to the kernel. -/
def nlFiles [FloorRing K] (i : NlIn K) (curves hhG hhX : List (List K)) : List (String × FC K) :=
  let prof := nlProfile i.rows
  [("NLHH.unix", .exe), ("tabk.dat", .mat (tabkRows.map fun r => r.map fun (x : Int) => (x : K) / 10 ^ 8)),
   ("control.dat", .ctl [30, 10, 30, nBound i.boundary, prof.length - 1, i.accel.length, i.nMat, 120, 50]),
   ("profile.dat", .mat (prof.map fun r => [r.thk, r.vs, r.xi, r.rho, r.mat])),
   ("incident.dat", .mat ((nlIncident i.boundary i.accel).map fun p => [p.1, p.2])),
   ("curve.dat", .mat curves), ("HH_G.dat", .mat hhG), ("HH_x.dat", .mat hhX)]

/-- The arrays read back (class_simulation.py L715-721). -/
structure NlRead (K : Type) where
  zb : Arr K
  zm : Arr K
  a : Arr K
  v : Arr K
  d : Arr K
  gamma : Arr K
  tau : Arr K
  deriving DecidableEq

/-- `np.genfromtxt(name)` in directory `d`. -/
def opTable (d : Path) (name : String) : Op (FC K) (Arr K) := do
  let c ← opRead (d ++ [name])
  opLift (toArr c)

/-- class_simulation.py L715-721, in the working directory. -/
def nlReadAll (d : Path) : Op (FC K) (NlRead K) := do
  let zb ← opTable d "node_depth.dat"
  let zm ← opTable d "layer_depth.dat"
  let a ← opTable d "out_a.dat"
  let v ← opTable d "out_v.dat"
  let dd ← opTable d "out_d.dat"
  let g ← opTable d "out_gamma.dat"
  let t ← opTable d "out_tau.dat"
  return ⟨zb, zm, a, v, dd, g, t⟩

/-- class_simulation.py L723-734: remove the files of the kernel. -/
def nlClean (d : Path) : Op (FC K) Unit := fun s =>
  (Op.andThen (opForEach (fun n => opRemove (d ++ [n])) (globDat s.fs d)) fun _ => opRemove (d ++ ["NLHH.unix"])) s

/-- The results. -/
structure NlRes (K T : Type) where
  read : NlRead K
  surface : Rec K
  maxAvd : List (K × K × K × K)
  maxGt : List (K × K × K)
  tf : T
  tfs : T
  profile : List (Row K)
  nLayer : Nat
  dir : Path

/-- class_simulation.py L736-757: maxima, surface motion and transfer functions. -/
def nlPost {T : Type} (tf tfs : Rec K → Rec K → Except PyErr T) (x : Rec K) (r : NlRead K) :
    Except PyErr (Rec K × List (K × K × K × K) × List (K × K × K) × T × T) := do
  let ma ← colMax r.a
  let mv ← colMax r.v
  let md ← colMax r.d
  let mg ← colMax r.gamma
  let mt ← colMax r.tau
  let zb ← depthArr r.zb
  let zm ← depthArr r.zm
  let avd ← nlStack4 zb ma mv md
  let gt ← nlStack3 zm mg mt
  let a0 ← firstCol r.a
  let surf ← colStack (x.map Prod.fst) a0
  let t1 ← tf x surf
  let t2 ← tfs x surf
  return (surf, avd, gt, t1, t2)

/-- `assert_2D_numpy_array` (TypeError) and the shape assertion of class_simulation_results.py L158-186. -/
def checkHist (a : Arr K) (nt k : Nat) : Except PyErr Unit :=
  match a with
  | .mat cols => if cols.length = k ∧ ∀ c ∈ cols, c.length = nt then .ok () else .error .assertionError
  | _ => .error .typeError

/-- class_simulation.py L761-776 with class_simulation_results.py L155-195: packaging. -/
def nlPack {T : Type} [FloorRing K] (prof : List (Row K)) (dir : Path) (r : NlRead K)
    (q : Rec K × List (K × K × K × K) × List (K × K × K) × T × T) : Except PyErr (NlRes K T) := do
  let (p, σ) ← mkProfile [.five prof] 0 .one .gcc false 3
  match σ[p.prof]? with
  | some (.five rows) => do
    checkHist r.a q.1.length (p.nLayer + 1)
    checkHist r.v q.1.length (p.nLayer + 1)
    checkHist r.d q.1.length (p.nLayer + 1)
    checkHist r.tau q.1.length p.nLayer
    checkHist r.gamma q.1.length p.nLayer
    if q.2.1.length = p.nLayer + 1 ∧ q.2.2.1.length = p.nLayer then
      return ⟨r, q.1, q.2.1, q.2.2.1, q.2.2.2.1, q.2.2.2.2, rows, p.nLayer, dir⟩
    else .error .assertionError
  | _ => .error .other

/-- The options of `run`. -/
structure NlOpts where
  showFig : Bool
  saveFig : Bool
  saveTxt : Bool
  full : Bool
  removeDir : Bool
  name : String

/-- The part of the run in the simulation directory (class_simulation.py L687-758), with the working
directory `old` set again at the end. -/
def nlInside {T : Type} (kern : Kernel K) (tf tfs : Rec K → Rec K → Except PyErr T) (x : Rec K) (dir old : Path) :
    Op (FC K) (NlRead K × (Rec K × List (K × K × K × K) × List (K × K × K) × T × T)) := do
  opChdir dir
  opKernel kern
  let r ← nlReadAll dir
  nlClean dir
  let q ← opLift (nlPost tf tfs x r)
  opChdir old
  return (r, q)

/-- class_simulation.py L577-578: `sim_dir` has components `rel` relative to `anchor`, an empty last component
standing for a slash at the end; an underscore is appended to the string if the path exists. -/
def chooseDir (anchor : Path) (rel : List String) : Op (FC K) (List String) := do
  let e ← opExists (anchor ++ rel.filter (· ≠ ""))
  let rel' := if e then rel.dropLast ++ [rel.getLastD "" ++ "_"] else rel
  return rel'.filter (· ≠ "")

/-- class_simulation.py L508-795 `Nonlinear_Simulation.run` with `sim_dir` given. -/
def nonlinearRun {T : Type} [FloorRing K] (kern : Kernel K) (tf tfs : Rec K → Rec K → Except PyErr T) (i : NlIn K)
    (op : NlOpts) (anchor : Path) (rel : List String) : Op (FC K) (NlRes K T) := do
  let rel' ← chooseDir anchor rel
  let dir := anchor ++ rel'
  opMakedirs dir
  opLift (checkVsFormat (.five i.rows))
  let curves ← opLift i.curves
  let hhG ← opLift i.hhG
  let hhX ← opLift i.hhX
  opForEach (fun p => opWrite (dir ++ [p.1]) p.2) (nlFiles i curves hhG hhX)
  let old ← opGetcwd
  let rq ← nlInside kern tf tfs i.accel dir old
  let res ← opLift (nlPack (nlProfile i.rows) dir rq.1 rq.2)
  let o : ResObj := ⟨dir, op.name, true, true, true, true, true, true, true, true⟩
  opWhen op.showFig (savePlots FC.res o op.saveFig none)
  opWhen op.saveTxt (toTxt FC.res o op.full none)
  opWhen (!op.saveTxt && !op.saveFig && op.removeDir) (opRemovedirs anchor rel')
  return res

end Verif
