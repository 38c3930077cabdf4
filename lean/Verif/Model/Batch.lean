import Verif.Basic
import Mathlib.Data.Nat.Digits.Defs

/-!
Model of `class_batch_simulation.py`.

A simulation object is the function from the options handed to its `run` method to the result; results
other than what `run` returns (files, figures) are not modelled.  `multiprocessing.Pool.map` cuts the tasks
into chunks; each chunk is pickled as one object, so the tasks of a chunk share one copy of the options;
chunks are run and finish in any order, results are put in place by index, and the error of the first
failing chunk to finish is raised.
-/

namespace Verif

/-- Python values of options. -/
inductive OptVal where
  | bool (b : Bool)
  | str (s : List Char)
  | num (n : Int)
  deriving DecidableEq

/-- A dictionary, in insertion order. -/
abbrev PyDict := List (String × OptVal)

/-- `d.get(k)`. -/
def dictGet (d : PyDict) (k : String) : Option OptVal := (d.find? fun p => p.1 == k).map Prod.snd

/-- `d.update({k: v})`: an old key keeps its place. -/
def dictSet : PyDict → String → OptVal → PyDict
  | [], k, v => [(k, v)]
  | p :: d, k, v => if p.1 = k then (k, v) :: d else p :: dictSet d k v

/-- `str(n)`. -/
def pyStr (n : Nat) : List Char := if n = 0 then ['0'] else ((Nat.digits 10 n).reverse.map Nat.digitChar)

/-- `s.rjust(w, '0')`. -/
def rjust0 (w : Nat) (s : List Char) : List Char := List.replicate (w - s.length) '0' ++ s

/-- `os.path.join(base, name)` for a relative `name` (POSIX). -/
def pathJoin (base name : List Char) : List Char :=
  if base = [] ∨ base.getLast? = some '/' then base ++ name else base ++ '/' :: name

/-- class_batch_simulation.py L224: the output directory of simulation `i` of `n`. -/
def simDir (base : List Char) (n i : Nat) : List Char := pathJoin base (rjust0 (pyStr n).length (pyStr i))

/-- class_batch_simulation.py L225-228: the name of the option. -/
def dirKey (nonlinear : Bool) : String := if nonlinear then "sim_dir" else "output_dir"

/-- The classes a batch element can have. -/
inductive SimKind where
  | linear
  | equivLinear
  | nonlinear
  | notSim
  deriving DecidableEq

/-- class_batch_simulation.py L57-92 `__init__`: the classes of the elements (`none`: not a list); the class
of the batch.  None of the three classes is a subclass of another one. -/
def batchInit : Option (List SimKind) → Except PyErr SimKind
  | none => .error .typeError
  | some [] => .error .valueError
  | some (k :: ks) =>
    if k = .notSim then .error .typeError
    else if (k :: ks).all (fun j => decide (j = k)) then .ok k
    else .error .typeError

variable {R : Type}

/-- class_batch_simulation.py L198-240 `_run_single_sim`: the result and the options afterwards. -/
def runSingle (sims : List (PyDict → Except PyErr R)) (nonlinear : Bool) (base : List Char) (catching : Bool) (i : Nat)
    (opts : PyDict) : Except PyErr (Option R) × PyDict :=
  let o := dictSet opts (dirKey nonlinear) (.str (simDir base sims.length i))
  match sims[i]? with
  | none => (.error .indexError, o)
  | some f =>
    match f o with
    | .ok r => (.ok (some r), o)
    | .error e => if catching = true ∧ e = .valueError then (.ok none, o) else (.error e, o)

/-- Several simulations one after the other, sharing the options. -/
def runSeq (sims : List (PyDict → Except PyErr R)) (nonlinear : Bool) (base : List Char) (catching : Bool) :
    List Nat → PyDict → Except PyErr (List (Option R)) × PyDict
  | [], opts => (.ok [], opts)
  | i :: is, opts =>
    let p := runSingle sims nonlinear base catching i opts
    match p.1 with
    | .error e => (.error e, p.2)
    | .ok r =>
      let q := runSeq sims nonlinear base catching is p.2
      match q.1 with
      | .error e => (.error e, q.2)
      | .ok rs => (.ok (r :: rs), q.2)

/-- class_batch_simulation.py L152-158, serial run. -/
def batchRunSerial (sims : List (PyDict → Except PyErr R)) (nonlinear : Bool) (base : List Char) (catching : Bool)
    (opts : PyDict) : Except PyErr (List (Option R)) × PyDict :=
  runSeq sims nonlinear base catching (List.range sims.length) opts

/-- Put results in place. -/
def putAll {α : Type} : List Nat → List α → List (Option α) → List (Option α)
  | i :: is, r :: rs, slots => putAll is rs (slots.set i (some r))
  | _, _, slots => slots

/-- `Pool.map`: the chunks in the order in which they finish. -/
def poolLoop {α : Type} (chunk : List Nat → Except PyErr (List α)) :
    List (List Nat) → List (Option α) → Option PyErr → List (Option α) × Option PyErr
  | [], slots, err => (slots, err)
  | c :: cs, slots, err =>
    match chunk c with
    | .ok rs => poolLoop chunk cs (putAll c rs slots) err
    | .error e => poolLoop chunk cs slots (match err with | none => some e | some e0 => some e0)

/-- `Pool.map` of `n` tasks.  Slots without result do not occur if the chunks cover all tasks. -/
def poolMap {α : Type} (n : Nat) (chunk : List Nat → Except PyErr (List α)) (sched : List (List Nat)) : Except PyErr (List α) :=
  match poolLoop chunk sched (List.replicate n none) none with
  | (_, some e) => .error e
  | (slots, none) => match slots.mapM id with
    | some l => .ok l
    | none => .error .other

/-- class_batch_simulation.py L188-191: figures after a parallel run; `None` has no `plot`. -/
def plotAll (plot : R → Except PyErr Unit) : List (Option R) → Except PyErr Unit
  | [] => .ok ()
  | none :: _ => .error .attributeError
  | some r :: rs => match plot r with
    | .error e => .error e
    | .ok _ => plotAll plot rs

/-- class_batch_simulation.py L159-194, parallel run.  The options of the caller are untouched. -/
def batchRunParallel (sims : List (PyDict → Except PyErr R)) (plot : R → Except PyErr Unit) (nonlinear : Bool) (base : List Char)
    (catching : Bool) (opts : PyDict) (sched : List (List Nat)) : Except PyErr (List (Option R)) × PyDict :=
  (match poolMap sims.length (fun c => (runSeq sims nonlinear base catching c opts).1) sched with
  | .error e => .error e
  | .ok rs =>
    if dictGet opts "show_fig" = some (.bool true) then
      match plotAll plot rs with
      | .error e => .error e
      | .ok _ => .ok rs
    else .ok rs, opts)

end Verif
