import Verif.Basic
import Mathlib.Data.List.Range

/-!
Model of the list-like containers `Multiple_Curves` (class_curves.py) and
`Param_Multi_Layer` (class_parameters.py), and of the dictionary-like `Parameter`.
-/

namespace Verif

/-! ## Python list primitives (language semantics, not code of the package) -/

/-- Python index resolution: `l[i]` for a list of length `n`. -/
def pyIndex (n : Nat) (i : Int) : Except PyErr Nat :=
  if 0 ≤ i ∧ i < n then .ok i.toNat
  else if i < 0 ∧ -(n : Int) ≤ i then .ok (i + n).toNat
  else .error .indexError

/-- A Python slice object `start:stop:step`; `none` stands for an omitted part. -/
structure Slice where
  start : Option Int
  stop : Option Int
  step : Option Int
  deriving DecidableEq, Repr

/-- CPython `PySlice_AdjustIndices`: clipping of one bound. -/
def clipBound (n : Nat) (neg : Bool) (x : Int) : Int :=
  if x < 0 then
    if x + n < 0 then (if neg then -1 else 0) else x + n
  else if (n : Int) ≤ x then (if neg then (n : Int) - 1 else n) else x

/-- The list indices selected by a slice of a list of length `n`
(`range(*slice.indices(n))`); a zero step is a ValueError. -/
def sliceIdx (n : Nat) (s : Slice) : Except PyErr (List Nat) :=
  let step := s.step.getD 1
  if step = 0 then .error .valueError
  else if 0 < step then
    let a := (s.start.map (clipBound n false)).getD 0
    let b := (s.stop.map (clipBound n false)).getD n
    .ok ((List.range ((b - a + step - 1) / step).toNat).map fun k : Nat => (a + (k : Int) * step).toNat)
  else
    let a := (s.start.map (clipBound n true)).getD ((n : Int) - 1)
    let b := (s.stop.map (clipBound n true)).getD (-1)
    .ok ((List.range ((a - b + (-step) - 1) / (-step)).toNat).map fun k : Nat => (a + (k : Int) * step).toNat)

/-- `del l[s]` for the selected indices. -/
def delIdx {α : Type*} (l : List α) (idx : List Nat) : List α :=
  (l.zipIdx.filter fun p => decide (p.2 ∉ idx)).map Prod.fst

/-- `l[s]` for the selected indices. -/
def getIdx {α : Type*} (l : List α) (idx : List Nat) : List α := idx.filterMap fun i => l[i]?

/-! ## `Multiple_Curves` -/

/-- Classes of curve objects (class_curves.py L22, L187, L273, L535). -/
inductive CurveCls | curve | ggmax | damping | stress
  deriving DecidableEq, Repr

/-- `isinstance(x, c)` for an object whose class is `x`: every class is a subclass of
itself and of `Curve`. -/
def CurveCls.isInst (x c : CurveCls) : Bool := decide (c = .curve) || decide (x = c)

/-- Container classes: the base class and its two subclasses (class_curves.py L622,
L798, L1267). -/
inductive MultiCls | base | ggmax | damping
  deriving DecidableEq, Repr

/-- A curve object: its class and an identity/payload. -/
structure CurveObj (P : Type) where
  cls : CurveCls
  val : P
  deriving DecidableEq, Repr

/-- class_curves.py L662-664, L683-685: the attributes of a container. -/
structure Multi (P : Type) where
  cls : MultiCls
  elemClass : CurveCls
  curves : List (CurveObj P)
  nLayer : Int
  deriving DecidableEq, Repr

/-- An element of the list given to the constructor. -/
inductive CurveArg (P : Type)
  | arr (x : P)          -- a numpy array
  | obj (c : CurveObj P) -- a curve object
  | other
  deriving DecidableEq, Repr

variable {P : Type}

/-- class_curves.py L672-681: conversion of one element.  `conv` is the constructor of
the element class applied to an array (it may raise). -/
def convArg (ec : CurveCls) (conv : CurveCls → P → Except PyErr P) : CurveArg P → Except PyErr (CurveObj P)
  | .arr x => (conv ec x).map fun v => ⟨ec, v⟩
  | .obj c => if c.cls.isInst ec then .ok c else .error .typeError
  | .other => .error .typeError

/-- class_curves.py L666-685 `Multiple_Curves.__init__`. -/
def Multi.mk' (cls : MultiCls) (ec : CurveCls) (conv : CurveCls → P → Except PyErr P) (l : List (CurveArg P)) :
    Except PyErr (Multi P) :=
  (l.mapM (convArg ec conv)).map fun cs => { cls := cls, elemClass := ec, curves := cs, nLayer := cs.length }

/-- Element class used by `self.__class__(...)` when no `element_class` is passed:
class_curves.py L670 (default `Curve`), L860-863 (`Damping_Curve`), L1329-1332 (`GGmax_Curve`). -/
def MultiCls.defaultElem : MultiCls → CurveCls
  | .base => .curve
  | .ggmax => .ggmax
  | .damping => .damping

/-- The list-like operations. -/
inductive MOp (P : Type)
  | get (i : Int) | getSlice (s : Slice) | getBad
  | set (i : Int) (x : CurveArg P) | setSlice (s : Slice) (x : CurveArg P)
  | del (i : Int) | delSlice (s : Slice)
  | append (x : CurveArg P) | len | contains (x : CurveObj P)
  deriving DecidableEq

/-- Observable results. -/
inductive MOut (P : Type)
  | unit | elem (c : CurveObj P) | sub (m : Multi P) | nat (n : Nat) | bool (b : Bool) | err (e : PyErr)
  deriving DecidableEq

/-- `isinstance(item, self.element_class)` (class_curves.py L697, L719). -/
def CurveArg.inst (ec : CurveCls) : CurveArg P → Option (CurveObj P)
  | .obj c => if c.cls.isInst ec then some c else none
  | _ => none

/-- class_curves.py L690-725: the list-like methods.  `__len__` with a negative count
makes `len()` raise ValueError (Python semantics).  Assigning a curve object to a slice
raises TypeError because a curve is not iterable.  A slice with zero step raises
ValueError. -/
def Multi.step [DecidableEq P] (m : Multi P) : MOp P → Multi P × MOut P
  | .get i =>
    match pyIndex m.curves.length i with
    | .error e => (m, .err e)
    | .ok k => match m.curves[k]? with | some c => (m, .elem c) | none => (m, .err .indexError)
  | .getSlice s =>
    match sliceIdx m.curves.length s with
    | .error e => (m, .err e)
    | .ok idx =>
      match Multi.mk' m.cls m.cls.defaultElem (fun _ _ => .error .other) ((getIdx m.curves idx).map .obj) with
      | .error e => (m, .err e)
      | .ok m' => (m, .sub m')
  | .getBad => (m, .err .typeError)
  | .set i x =>
    match x.inst m.elemClass with
    | none => (m, .err .typeError)
    | some c =>
      match pyIndex m.curves.length i with
      | .error e => (m, .err e)
      | .ok k => ({ m with curves := m.curves.set k c }, .unit)
  | .setSlice _ _ => (m, .err .typeError)
  | .del i =>
    match pyIndex m.curves.length i with
    | .error e => (m, .err e)
    | .ok k => ({ m with curves := m.curves.eraseIdx k, nLayer := m.nLayer - 1 }, .unit)
  | .delSlice s =>
    match sliceIdx m.curves.length s with
    | .error e => (m, .err e)
    | .ok idx => ({ m with curves := delIdx m.curves idx, nLayer := m.nLayer - 1 }, .unit)
  | .append x =>
    match x.inst m.elemClass with
    | none => (m, .err .typeError)
    | some c => ({ m with curves := m.curves ++ [c], nLayer := m.nLayer + 1 }, .unit)
  | .len => if m.nLayer < 0 then (m, .err .valueError) else (m, .nat m.nLayer.toNat)
  | .contains x => (m, .bool (decide (x ∈ m.curves)))

/-- A history of operations: final state and all results. -/
def Multi.run [DecidableEq P] (m : Multi P) : List (MOp P) → Multi P × List (MOut P)
  | [] => (m, [])
  | op :: ops =>
    let r := m.step op
    let r' := Multi.run r.1 ops
    (r'.1, r.2 :: r'.2)

/-! ## `Param_Multi_Layer` -/

/-- Parameter classes and other values that can be stored in a container. -/
inductive PCls | hh | mkz | foreign
  deriving DecidableEq, Repr

/-- A stored object. -/
structure PObj (P : Type) where
  cls : PCls
  val : P
  deriving DecidableEq, Repr

/-- Container classes (class_parameters.py L341, L535, L628). -/
inductive PMultiCls | base | hh | mkz
  deriving DecidableEq, Repr

/-- class_parameters.py L379-400: the attributes of a container.  The element class is
not stored by the code; `ec` is a ghost field recording the one given at construction. -/
structure PMulti (P : Type) where
  cls : PMultiCls
  ec : PCls
  items : List (PObj P)
  nLayer : Int
  deriving DecidableEq, Repr

/-- An element of the list given to the constructor: a dictionary (built into an
`ec` object by `conv`, which may raise) or an object. -/
inductive PArg (P : Type)
  | dict (x : P) | obj (c : PObj P)
  deriving DecidableEq, Repr

/-- class_parameters.py L388-397. -/
def convPArg (ec : PCls) (conv : PCls → P → Except PyErr P) : PArg P → Except PyErr (PObj P)
  | .dict x => (conv ec x).map fun v => ⟨ec, v⟩
  | .obj c => if c.cls = ec then .ok c else .error .typeError

/-- class_parameters.py L382-400 `Param_Multi_Layer.__init__`. -/
def PMulti.mk' (cls : PMultiCls) (ec : PCls) (conv : PCls → P → Except PyErr P) (l : List (PArg P)) :
    Except PyErr (PMulti P) :=
  (l.mapM (convPArg ec conv)).map fun cs => { cls := cls, ec := ec, items := cs, nLayer := cs.length }

/-- The list-like operations; the value of an assignment is arbitrary. -/
inductive PLOp (P : Type)
  | get (i : Int) | getSlice (s : Slice) | getBad
  | set (i : Int) (x : PObj P) | setRange (a b : Nat) (xs : List (PObj P))
  | del (i : Int) | delSlice (s : Slice) | len | contains (x : PObj P)
  deriving DecidableEq

inductive POut (P : Type)
  | unit | elem (c : PObj P) | sub (m : PMulti P) | nat (n : Nat) | bool (b : Bool) | err (e : PyErr)
  deriving DecidableEq

/-- class_parameters.py L402-422.  `setRange a b xs` is `foo[a:b] = xs` for
non-negative bounds (other slice assignments are not modelled).  Slicing a base-class
container raises TypeError (`element_class` is a required keyword, L385). -/
def PMulti.step [DecidableEq P] (m : PMulti P) : PLOp P → PMulti P × POut P
  | .get i =>
    match pyIndex m.items.length i with
    | .error e => (m, .err e)
    | .ok k => match m.items[k]? with | some c => (m, .elem c) | none => (m, .err .indexError)
  | .getSlice s =>
    match sliceIdx m.items.length s with
    | .error e => (m, .err e)
    | .ok idx =>
      match m.cls with
      | .base => (m, .err .typeError)
      | .hh =>
        match PMulti.mk' .hh .hh (fun _ _ => .error .other) ((getIdx m.items idx).map .obj) with
        | .error e => (m, .err e)
        | .ok m' => (m, .sub m')
      | .mkz =>
        match PMulti.mk' .mkz .mkz (fun _ _ => .error .other) ((getIdx m.items idx).map .obj) with
        | .error e => (m, .err e)
        | .ok m' => (m, .sub m')
  | .getBad => (m, .err .typeError)
  | .set i x =>
    match pyIndex m.items.length i with
    | .error e => (m, .err e)
    | .ok k => ({ m with items := m.items.set k x }, .unit)
  | .setRange a b xs =>
    ({ m with items := m.items.take a ++ xs ++ m.items.drop (max (min a m.items.length) (min b m.items.length)) }, .unit)
  | .del i =>
    match pyIndex m.items.length i with
    | .error e => (m, .err e)
    | .ok k => ({ m with items := m.items.eraseIdx k, nLayer := m.nLayer - 1 }, .unit)
  | .delSlice s =>
    match sliceIdx m.items.length s with
    | .error e => (m, .err e)
    | .ok idx => ({ m with items := delIdx m.items idx, nLayer := m.nLayer - 1 }, .unit)
  | .len => if m.nLayer < 0 then (m, .err .valueError) else (m, .nat m.nLayer.toNat)
  | .contains x => (m, .bool (decide (x ∈ m.items)))

def PMulti.run [DecidableEq P] (m : PMulti P) : List (PLOp P) → PMulti P × List (POut P)
  | [] => (m, [])
  | op :: ops =>
    let r := m.step op
    let r' := PMulti.run r.1 ops
    (r'.1, r.2 :: r'.2)

/-! ## `Parameter` dictionaries -/

/-- A Python dict with string keys: insertion-ordered association list. -/
abbrev Dict (V : Type) := List (String × V)

variable {V : Type}

/-- `d[k] = v`: overwrite in place or append. -/
def Dict.put (d : Dict V) (k : String) (v : V) : Dict V :=
  if k ∈ d.map Prod.fst then d.map fun p => if p.1 = k then (k, v) else p else d ++ [(k, v)]

/-- `d[k]`. -/
def Dict.look (d : Dict V) (k : String) : Except PyErr V :=
  match d.find? fun p => decide (p.1 = k) with
  | some p => .ok p.2
  | none => .error .keyError

/-- class_parameters.py L26-104: `Parameter` (its dictionary and its key set). -/
structure Param (V : Type) where
  allow : List String
  data : Dict V
  deriving DecidableEq, Repr

/-- `param_dict.keys() == allowable_keys` (set comparison). -/
def sameKeys (d : Dict V) (allow : List String) : Bool :=
  d.all (fun p => decide (p.1 ∈ allow)) && allow.all (fun k => decide (k ∈ d.map Prod.fst))

/-- class_parameters.py L66-90 `Parameter.__init__` on a dict; `super().__init__`
copies through `__setitem__` (`UserDict.update`), which succeeds for allowed keys. -/
def Param.mk' (allow : List String) (d : Dict V) : Except PyErr (Param V) :=
  if sameKeys d allow then .ok { allow := allow, data := d.foldl (fun acc p => acc.put p.1 p.2) [] }
  else .error .keyError

/-- class_parameters.py L95-99 `__setitem__`. -/
def Param.setItem (p : Param V) (k : String) (v : V) : Param V × Except PyErr Unit :=
  if k ∈ p.allow then ({ p with data := p.data.put k v }, .ok ()) else (p, .error .keyError)

/-- Dictionary operations available on a `Parameter` (`collections.UserDict`). -/
inductive DOp (V : Type)
  | set (k : String) (v : V) | del (k : String) | get (k : String)
  | update (kv : Dict V) | setdefault (k : String) (v : V)
  | pop (k : String) | popDefault (k : String) (v : V) | popitem | clear
  | ior (kv : Dict V) | orNew (kv : Dict V) | copy
  deriving DecidableEq

inductive DOut (V : Type)
  | unit | val (v : V) | newObj (p : Param V) | err (e : PyErr)
  deriving DecidableEq

/-- `MutableMapping.update`: item by item through `__setitem__`, stopping at the
first error (earlier items stay assigned). -/
def Param.update (p : Param V) : Dict V → Param V × Except PyErr Unit
  | [] => (p, .ok ())
  | (k, v) :: kv =>
    match p.setItem k v with
    | (p', .ok ()) => Param.update p' kv
    | (p', .error e) => (p', .error e)

/-- class_parameters.py L95-104 and the methods inherited from `collections.UserDict` /
`MutableMapping` of the Python standard library (`pop`, `popitem` and `clear` go through
`__delitem__`, `update` and `setdefault` through `__setitem__`, whereas `__ior__`
writes to `self.data` directly; `__or__` builds a new object of the same class). -/
def Param.step (p : Param V) : DOp V → Param V × DOut V
  | .set k v => match p.setItem k v with | (p', .ok ()) => (p', .unit) | (p', .error e) => (p', .err e)
  | .del _ => (p, .err .valueError)
  | .get k => match p.data.look k with | .ok v => (p, .val v) | .error e => (p, .err e)
  | .update kv => match p.update kv with | (p', .ok ()) => (p', .unit) | (p', .error e) => (p', .err e)
  | .setdefault k v =>
    match p.data.look k with
    | .ok w => (p, .val w)
    | .error _ => match p.setItem k v with | (p', .ok ()) => (p', .val v) | (p', .error e) => (p', .err e)
  | .pop k => match p.data.look k with | .ok _ => (p, .err .valueError) | .error e => (p, .err e)
  | .popDefault k v => match p.data.look k with | .ok _ => (p, .err .valueError) | .error _ => (p, .val v)
  | .popitem => if p.data = [] then (p, .err .keyError) else (p, .err .valueError)
  | .clear => if p.data = [] then (p, .unit) else (p, .err .valueError)
  | .ior kv => ({ p with data := kv.foldl (fun acc q => acc.put q.1 q.2) p.data }, .unit)
  | .orNew kv =>
    match Param.mk' p.allow (kv.foldl (fun acc q => acc.put q.1 q.2) p.data) with
    | .ok q => (p, .newObj q)
    | .error e => (p, .err e)
  | .copy => (p, .newObj { p with data := p.data })

def Param.run (p : Param V) : List (DOp V) → Param V × List (DOut V)
  | [] => (p, [])
  | op :: ops =>
    let r := p.step op
    let r' := Param.run r.1 ops
    (r'.1, r.2 :: r'.2)

/-- class_parameters.py L278-288: the HH keys. -/
def hhKeys : List String := ["gamma_t", "a", "gamma_ref", "beta", "s", "Gmax", "mu", "Tmax", "d"]

/-- class_parameters.py L326: the MKZ keys. -/
def mkzKeys : List String := ["gamma_ref", "s", "beta", "Gmax"]

end Verif
