import Verif.Basic

/-!
A file system and a working directory, and the parts of `os`, `shutil` and `glob` that
`class_simulation.py` and `class_simulation_results.py` use.

A path is the list of its components from the root; permissions, links and the empty and dot components of
path strings are not modelled.  Operations return the state also if they raise.
-/

namespace Verif

/-- Absolute path. -/
abbrev Path := List String

/-- An entry of the file system. -/
inductive Node (C : Type) where
  | dir
  | file (c : C)
  deriving DecidableEq

/-- The entries other than the root directory. -/
abbrev FS (C : Type) := List (Path × Node C)

/-- File system and working directory. -/
structure St (C : Type) where
  fs : FS C
  cwd : Path
  deriving DecidableEq

variable {C : Type}

/-- Look an entry up. -/
def fsGet (fs : FS C) (p : Path) : Option (Node C) :=
  if p = [] then some .dir else (fs.find? fun e => decide (e.1 = p)).map Prod.snd

/-- Replace or add an entry. -/
def fsPut (fs : FS C) (p : Path) (n : Node C) : FS C := (p, n) :: fs.filter fun e => decide (e.1 ≠ p)

/-- Delete an entry. -/
def fsDel (fs : FS C) (p : Path) : FS C := fs.filter fun e => decide (e.1 ≠ p)

/-- Computations that change the state and may raise. -/
def Op (C α : Type) : Type := St C → Except PyErr α × St C

/-- One after the other; the first error ends the computation. -/
def Op.andThen {α β : Type} (x : Op C α) (f : α → Op C β) : Op C β := fun s =>
  match x s with
  | (.ok a, s') => f a s'
  | (.error e, s') => (.error e, s')

instance : Monad (Op C) where
  pure a := fun s => (.ok a, s)
  bind := Op.andThen

/-- `if b: x`. -/
def opWhen (b : Bool) (x : Op C Unit) : Op C Unit := if b then x else pure ()

/-- A computation that does not touch the state. -/
def opLift {α : Type} (x : Except PyErr α) : Op C α := fun s => (x, s)

/-- `os.path.exists`. -/
def opExists (p : Path) : Op C Bool := fun s => (.ok (fsGet s.fs p).isSome, s)

/-- `os.getcwd`. -/
def opGetcwd : Op C Path := fun s => (.ok s.cwd, s)

/-- `os.chdir`. -/
def opChdir (p : Path) : Op C Unit := fun s =>
  match fsGet s.fs p with
  | some .dir => (.ok (), { s with cwd := p })
  | some (.file _) => (.error .other, s)
  | none => (.error .fileNotFound, s)

/-- The missing directories on the way from `done`. -/
def mkdirAll : Path → List String → FS C → Except PyErr (FS C)
  | _, [], fs => .ok fs
  | done, c :: cs, fs =>
    match fsGet fs (done ++ [c]) with
    | some .dir => mkdirAll (done ++ [c]) cs fs
    | some (.file _) => .error .other
    | none => mkdirAll (done ++ [c]) cs (fsPut fs (done ++ [c]) .dir)

/-- `os.makedirs`. -/
def opMakedirs (p : Path) : Op C Unit := fun s =>
  if (fsGet s.fs p).isSome then (.error .fileExists, s)
  else match mkdirAll [] p s.fs with
    | .ok fs => (.ok (), { s with fs := fs })
    | .error e => (.error e, s)

/-- Open a file for writing and write it (`np.savetxt`, `shutil.copy`, `open(…, 'w')`, `savefig`). -/
def opWrite (p : Path) (c : C) : Op C Unit := fun s =>
  match fsGet s.fs p.dropLast with
  | some .dir => match fsGet s.fs p with
    | some .dir => (.error .other, s)
    | _ => (.ok (), { s with fs := fsPut s.fs p (.file c) })
  | _ => (.error .fileNotFound, s)

/-- Read a file. -/
def opRead (p : Path) : Op C C := fun s =>
  match fsGet s.fs p with
  | some (.file c) => (.ok c, s)
  | some .dir => (.error .other, s)
  | none => (.error .fileNotFound, s)

/-- `os.remove`. -/
def opRemove (p : Path) : Op C Unit := fun s =>
  match fsGet s.fs p with
  | some (.file _) => (.ok (), { s with fs := fsDel s.fs p })
  | some .dir => (.error .other, s)
  | none => (.error .fileNotFound, s)

/-- Does `name` match the pattern `*.dat`?  Names that begin with a dot do not. -/
def isDat (name : String) : Bool :=
  decide (".dat".toList <:+ name.toList) && decide (name.toList.head? ≠ some '.')

/-- Names of the files of directory `d` (or of directories in it) that match `*.dat`. -/
def globDat (fs : FS C) (d : Path) : List String :=
  (fs.filterMap fun e => if e.1 ≠ [] ∧ e.1.dropLast = d then e.1.getLast? else none).filter isDat

/-- Do something for every element of a list. -/
def opForEach {α : Type} (f : α → Op C Unit) : List α → Op C Unit
  | [] => fun s => (.ok (), s)
  | a :: l => Op.andThen (f a) fun _ => opForEach f l

/-- Is there nothing below `p`? -/
def isEmptyDir (fs : FS C) (p : Path) : Bool := fs.all fun e => decide (¬ (p <+: e.1 ∧ e.1 ≠ p))

/-- `os.rmdir`; the working directory can be removed as any other. -/
def opRmdir (p : Path) : Op C Unit := fun s =>
  if p = [] then (.error .other, s)
  else match fsGet s.fs p with
    | some .dir => if isEmptyDir s.fs p then (.ok (), { s with fs := fsDel s.fs p }) else (.error .other, s)
    | some (.file _) => (.error .other, s)
    | none => (.error .fileNotFound, s)

/-- The parents in `os.removedirs`: stop silently at the first that cannot be removed. -/
def pruneLoop : List Path → Op C Unit
  | [] => fun s => (.ok (), s)
  | p :: ps => fun s =>
    match opRmdir p s with
    | (.ok _, s') => pruneLoop ps s'
    | (.error _, s') => (.ok (), s')

/-- The directories named by the components of `rel`, from the longest path to the shortest. -/
def parentsOf (anchor : Path) (rel : List String) : List Path :=
  (List.range rel.length).reverse.filterMap fun k => if k = 0 then none else some (anchor ++ rel.take k)

/-- `os.removedirs(name)` for a path string with components `rel`, relative to `anchor`. -/
def opRemovedirs (anchor : Path) (rel : List String) : Op C Unit := do
  opRmdir (anchor ++ rel)
  pruneLoop (parentsOf anchor rel)

end Verif
