import Verif.Model.Containers

/-!
Reference behaviour of a typed Python list and of a dictionary with a fixed key set.
-/

namespace Verif.Spec

open Verif

variable {P : Type}

/-- Position meant by a (possibly negative) Python index. -/
def pos (n : Nat) (i : Int) : Option Nat :=
  if i < 0 then (if (n : Int) + i < 0 then none else some ((n : Int) + i).toNat)
  else if i.toNat < n then some i.toNat else none

/-- What a Python list whose elements must be instances of `ec` does.  Slicing yields a
container of the same kind with the selected elements. -/
def listStep [DecidableEq P] (cls : MultiCls) (ec : CurveCls) (l : List (CurveObj P)) :
    MOp P → List (CurveObj P) × MOut P
  | .get i => (l, match (pos l.length i).bind (l[·]?) with | some c => .elem c | none => .err .indexError)
  | .getSlice s =>
    (l, match sliceIdx l.length s with
      | .ok idx => .sub ⟨cls, ec, getIdx l idx, (getIdx l idx).length⟩
      | .error e => .err e)
  | .getBad => (l, .err .typeError)
  | .set i (.obj c) =>
    if c.cls.isInst ec then
      match pos l.length i with
      | some k => (l.take k ++ [c] ++ l.drop (k + 1), .unit)
      | none => (l, .err .indexError)
    else (l, .err .typeError)
  | .set _ _ => (l, .err .typeError)
  | .setSlice _ _ => (l, .err .typeError)
  | .del i =>
    match pos l.length i with
    | some k => (l.take k ++ l.drop (k + 1), .unit)
    | none => (l, .err .indexError)
  | .delSlice s =>
    match sliceIdx l.length s with
    | .ok idx => (delIdx l idx, .unit)
    | .error e => (l, .err e)
  | .append (.obj c) => if c.cls.isInst ec then (l ++ [c], .unit) else (l, .err .typeError)
  | .append _ => (l, .err .typeError)
  | .len => (l, .nat l.length)
  | .contains x => (l, .bool (decide (x ∈ l)))

/-- A history on the reference list. -/
def listRun [DecidableEq P] (cls : MultiCls) (ec : CurveCls) (l : List (CurveObj P)) :
    List (MOp P) → List (CurveObj P) × List (MOut P)
  | [] => (l, [])
  | op :: ops =>
    let r := listStep cls ec l op
    let r' := listRun cls ec r.1 ops
    (r'.1, r.2 :: r'.2)

/-- The container invariant of C13. -/
structure MInv (m : Multi P) : Prop where
  count : m.nLayer = m.curves.length
  typed : ∀ c ∈ m.curves, c.cls.isInst m.elemClass = true

/-- The container invariant of C14. -/
structure PInv (m : PMulti P) : Prop where
  count : m.nLayer = m.items.length
  typed : ∀ c ∈ m.items, c.cls = m.ec

/-- The operation is not a slice deletion. -/
def noSliceDel : MOp P → Prop
  | .delSlice _ => False
  | _ => True

/-- Reference behaviour for parameter containers. -/
def plistStep [DecidableEq P] (cls : PMultiCls) (ec : PCls) (l : List (PObj P)) : PLOp P → List (PObj P) × POut P
  | .get i => (l, match (pos l.length i).bind (l[·]?) with | some c => .elem c | none => .err .indexError)
  | .getSlice s =>
    (l, match sliceIdx l.length s with
      | .ok idx => .sub ⟨cls, ec, getIdx l idx, (getIdx l idx).length⟩
      | .error e => .err e)
  | .getBad => (l, .err .typeError)
  | .set i c =>
    if c.cls = ec then
      match pos l.length i with
      | some k => (l.take k ++ [c] ++ l.drop (k + 1), .unit)
      | none => (l, .err .indexError)
    else (l, .err .typeError)
  | .setRange a b xs =>
    if ∀ x ∈ xs, x.cls = ec then
      (l.take a ++ xs ++ l.drop (max (min a l.length) (min b l.length)), .unit)
    else (l, .err .typeError)
  | .del i =>
    match pos l.length i with
    | some k => (l.take k ++ l.drop (k + 1), .unit)
    | none => (l, .err .indexError)
  | .delSlice s =>
    match sliceIdx l.length s with
    | .ok idx => (delIdx l idx, .unit)
    | .error e => (l, .err e)
  | .len => (l, .nat l.length)
  | .contains x => (l, .bool (decide (x ∈ l)))

def plistRun [DecidableEq P] (cls : PMultiCls) (ec : PCls) (l : List (PObj P)) :
    List (PLOp P) → List (PObj P) × List (POut P)
  | [] => (l, [])
  | op :: ops =>
    let r := plistStep cls ec l op
    let r' := plistRun cls ec r.1 ops
    (r'.1, r.2 :: r'.2)

/-- Operations on which parameter containers behave: no slice deletion, no slice
assignment, only elements of the right class are assigned. -/
def safeP (ec : PCls) : PLOp P → Prop
  | .delSlice _ => False
  | .setRange _ _ _ => False
  | .set _ x => x.cls = ec
  | _ => True

/-- The dictionary has exactly the allowed keys, each once. -/
structure KInv {V : Type} (p : Param V) : Prop where
  nodup : (p.data.map Prod.fst).Nodup
  keys : ∀ k, k ∈ p.data.map Prod.fst ↔ k ∈ p.allow

end Verif.Spec
