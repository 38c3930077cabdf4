import Verif.Model.Containers
import Verif.Model.VsProfile

/-!
Model of parameter serialisation (helper_hh_model.py, helper_mkz_model.py,
class_parameters.py), of curve matrices (helper_generic.py, class_curves.py) and of curve
construction with numpy aliasing (class_curves.py).
-/

namespace Verif

/-! ## Serialisation -/

section Ser
variable {V : Type}

/-- helper_hh_model.py L364-374: order of the HH array. -/
def hhOrder : List String := ["gamma_t", "a", "gamma_ref", "beta", "s", "Gmax", "mu", "Tmax", "d"]

/-- helper_hh_model.py L346-379 `serialize_params_to_array`. -/
def serializeHH (d : Dict V) : Except PyErr (List V) :=
  if d.length ≠ 9 then .error .assertionError else hhOrder.mapM d.look

/-- helper_hh_model.py L382-414 `deserialize_array_to_params` on a 1D array. -/
def deserializeHH : List V → Except PyErr (Dict V)
  | [x0, x1, x2, x3, x4, x5, x6, x7, x8] =>
    .ok [("gamma_t", x0), ("a", x1), ("gamma_ref", x2), ("beta", x3), ("s", x4), ("Gmax", x5), ("mu", x6),
      ("Tmax", x7), ("d", x8)]
  | _ => .error .assertionError

/-- helper_mkz_model.py L247: order of the MKZ array. -/
def mkzOrder : List String := ["gamma_ref", "s", "beta", "Gmax"]

/-- helper_mkz_model.py L220-255 `serialize_params_to_array`; `zero` is `0.0`. -/
def serializeMKZ (zero : V) (d : Dict V) (toFiles : Bool) : Except PyErr (List V) :=
  if d.length ≠ 4 then .error .assertionError
  else
    match mkzOrder.mapM d.look with
    | .error e => .error e
    | .ok l =>
      if toFiles then
        match l with
        | [x0, x1, x2, _] => .ok [x0, zero, x1, x2]
        | _ => .error .indexError
      else .ok l

/-- helper_mkz_model.py L258-303 `deserialize_array_to_params`; `one` is `1.0`. -/
def deserializeMKZ (one : V) (a : List V) (fromFiles : Bool) : Except PyErr (Dict V) :=
  match a with
  | [x0, x1, x2, x3] =>
    if fromFiles then .ok [("gamma_ref", x0), ("s", x2), ("beta", x3), ("Gmax", one)]
    else .ok [("gamma_ref", x0), ("s", x1), ("beta", x2), ("Gmax", x3)]
  | _ => .error .assertionError

/-- class_parameters.py L487-502 `serialize_to_2D_array`: `np.array(output).T` as the list
of its rows.  With no layers numpy yields an empty array, which has no rows. -/
def to2D (ser : Dict V → Except PyErr (List V)) (layers : List (Dict V)) : Except PyErr (List (List V)) := do
  let out ← layers.mapM ser
  match out with
  | [] => return []
  | r :: _ => return (List.range r.length).map fun i => out.filterMap fun l => l[i]?

/-- helper_generic.py L708-750 `extract_from_param_format`: the columns. -/
def extractParams (rows : List (List V)) : List (List V) :=
  match rows with
  | [] => []
  | r :: _ => (List.range r.length).map fun j => rows.filterMap fun l => l[j]?

/-- class_parameters.py L604-613 / L697-706: `*_Param_Multi_Layer` from a 2D array. -/
def from2D (deser : List V → Except PyErr (Dict V)) (rows : List (List V)) : Except PyErr (List (Dict V)) :=
  (extractParams rows).mapM deser

end Ser

/-! ## Curve matrices -/

section Mat
variable {K : Type} [Field K] [LinearOrder K]

/-- A 2D numpy array as its number of rows and the list of its columns. -/
structure CMat (K : Type) where
  nrow : Nat
  cols : List (List K)
  deriving DecidableEq, Repr

/-- `m[:, a:b]`. -/
def CMat.slice (m : CMat K) (a b : Nat) : CMat K := ⟨m.nrow, (m.cols.take b).drop a⟩

/-- `np.column_stack((m, n))`. -/
def CMat.hcat (m n : CMat K) : CMat K := ⟨m.nrow, m.cols ++ n.cols⟩

/-- helper_generic.py L367-419 `check_two_column_format` on a numeric 2D array without
NaN/inf. -/
def checkTwoCol (m : CMat K) (nonneg : Bool) : Except PyErr Unit :=
  if m.cols.length ≠ 2 then .error .typeError
  else if nonneg ∧ ∃ c ∈ m.cols, ∃ x ∈ c, x < 0 then .error .valueError
  else .ok ()

/-- helper_generic.py L687-703: the loop over layers. -/
def extractLoop (m : CMat K) (nonneg : Bool) (j : Nat) : Nat → Except PyErr (List (CMat K) × List (CMat K))
  | 0 => .ok ([], [])
  | k + 1 => do
    let g := m.slice (j * 4 + 0) (j * 4 + 2)
    let d := m.slice (j * 4 + 2) (j * 4 + 4)
    checkTwoCol g nonneg
    checkTwoCol d nonneg
    let (gs, ds) ← extractLoop m nonneg (j + 1) k
    return (g :: gs, d :: ds)

/-- helper_generic.py L629-705 `extract_from_curve_format` on a 2D array. -/
def extractCurves (m : CMat K) (nonneg : Bool) : Except PyErr (List (CMat K) × List (CMat K)) :=
  if m.cols.length % 4 ≠ 0 then .error .valueError
  else extractLoop m nonneg 0 (m.cols.length / 4)

/-- helper_generic.py L753-830 `merge_curve_matrices` on 2D arrays. -/
def mergeMats (g x : CMat K) : Except PyErr (CMat K) :=
  if g.cols.length % 4 ≠ 0 then .error .valueError
  else if x.cols.length % 4 ≠ 0 then .error .valueError
  else if g.cols.length ≠ x.cols.length then .error .valueError
  else if g.nrow ≠ x.nrow then .error .valueError
  else
    .ok ((List.range (g.cols.length / 4 - 1)).foldl
      (fun (acc : CMat K) (k : Nat) =>
        (acc.hcat (g.slice ((k + 1) * 4) ((k + 1) * 4 + 2))).hcat (x.slice ((k + 1) * 4 + 2) ((k + 1) * 4 + 4)))
      ((g.slice 0 2).hcat (x.slice 2 4)))

/-- A curve: strains and values. -/
abbrev CurveData (K : Type) := List K × List K

/-- class_curves.py L959-985 (damping) and L1428-1454 (G/Gmax): `get_curve_matrix`.  The
resampling of shorter curves (`np.geomspace`, `np.interp`) is the parameter `resample`.
`gg = true` puts the values in the G/Gmax column. -/
def curveMatrix (resample : CurveData K → Nat → CurveData K) (gg : Bool) (filler : K) (cs : List (CurveData K)) :
    Except PyErr (CMat K) :=
  match cs with
  | [] => .error .valueError
  | _ =>
    let L := (cs.map fun c => c.1.length).foldr max 0
    let block := fun c : CurveData K =>
      let c' := if c.1.length = L then c else resample c L
      let fill := c'.1.map fun _ => filler
      if gg then [c'.1, c'.2, c'.1, fill] else [c'.1, fill, c'.1, c'.2]
    .ok ⟨L, cs.flatMap block⟩

/-- class_curves.py L1605-1624 `Multiple_GGmax_Damping_Curves.get_curve_matrix` for an
object made of curve containers; fillers have their default 1.0. -/
def fullMatrix (resample : CurveData K → Nat → CurveData K) (ggs dmps : List (CurveData K)) :
    Except PyErr (CMat K) := do
  let g ← curveMatrix resample true 1 ggs
  let d ← curveMatrix resample false 1 dmps
  mergeMats g d

/-- Argument pattern of `Multiple_GGmax_Damping_Curves.__init__` (class_curves.py
L1509-1578): the two containers' layer counts, or the number of columns of `data`. -/
inductive MGDArg | pair (n m : Nat) | notTuple | badTuple | wrongTypes | none
  deriving DecidableEq, Repr

/-- class_curves.py L1509-1578: decision of the constructor; returns `n_layer`. `data` is
the number of columns of a 2D array. -/
def mgdInit (a : MGDArg) (data : Option Nat) : Except PyErr Nat :=
  match a, data with
  | .none, .none => .error .valueError
  | .none, .some c => if c % 4 ≠ 0 then .error .valueError else .ok (c / 4)
  | _, .some _ => .error .valueError
  | .notTuple, .none => .error .typeError
  | .badTuple, .none => .error .valueError
  | .wrongTypes, .none => .error .typeError
  | .pair n m, .none => if n ≠ m then .error .valueError else .ok n

/-- class_curves.py L924-985, L1393-1454: files written by `get_curve_matrix`; the
arguments `save_to_file` and `full_file_name` do not occur in the body. -/
def curveMatrixFiles (_save : Bool) (_name : Option String) : List String := []

end Mat

/-! ## Curve construction with aliasing -/

section Alias
variable {K : Type} [Field K] [LinearOrder K]

/-- Memory: two-column numpy arrays. -/
abbrev CStore (K : Type) := List (List (K × K))

/-- Unit of strain or damping; `bad` is anything else. -/
inductive Unit1 | one | pct | bad
  deriving DecidableEq, Repr

/-- Stress units of `Stress_Curve`. -/
inductive StressUnit | pa | kpa | mpa | gpa | bad
  deriving DecidableEq, Repr

/-- Which class is constructed, with its own unit argument. -/
inductive CurveKind | plain | ggmax | damping (u : Unit1) | stress (u : StressUnit)
  deriving DecidableEq, Repr

/-- Where the strain/value arrays of a curve object live: views of the caller's array,
or arrays of its own. -/
inductive Where (K : Type) | view (a : Nat) | own (d : List (K × K))
  deriving DecidableEq

/-- Scale the columns of an array. -/
def scaleCols (s v : K) (d : List (K × K)) : List (K × K) := d.map fun p => (p.1 * s, p.2 * v)

/-- In-place scaling of the columns seen through `w`. -/
def Where.scale (σ : CStore K) (s v : K) : Where K → Where K × CStore K
  | .view a => (.view a, σ.set a (scaleCols s v (σ[a]?.getD [])))
  | .own d => (.own (scaleCols s v d), σ)

/-- The data currently seen through `w`. -/
def Where.read (σ : CStore K) : Where K → List (K × K)
  | .view a => σ[a]?.getD []
  | .own d => d

/-- class_curves.py L78-114 `Curve.__init__` on the numeric two-column array at address
`a`.  `interp = some f` stands for `interpolate=True` with `f` the result of
`hlp.interpolate` (fresh arrays).  `chk` is `check_values`.  Returns the object (where its
strain and value columns live) or an error, and in both cases the memory afterwards. -/
def mkBase (σ : CStore K) (a : Nat) (su : Unit1)
    (interp : Option (List (K × K) → List (K × K))) (chk : Bool) : Except PyErr (Where K) × CStore K :=
  match σ[a]? with
  | none => (.error .other, σ)
  | some d =>
    if chk ∧ ∃ p ∈ d, p.1 < 0 ∨ p.2 < 0 then (.error .valueError, σ)
    else
      let w : Where K := match interp with | some f => .own (f d) | none => .view a
      match su with
      | .bad => (.error .valueError, σ)
      | .one => (.ok (w.scale σ 100 1).1, (w.scale σ 100 1).2)
      | .pct => (.ok w, σ)

/-- `check_values` at the end of the sub-class constructors: all values in `[0, hi]`. -/
def rangeCheck (σ : CStore K) (w : Where K) (hi : K) (chk : Bool) : Except PyErr (Where K) × CStore K :=
  if chk ∧ ∃ p ∈ w.read σ, hi < p.2 ∨ p.2 < 0 then (.error .valueError, σ) else (.ok w, σ)

/-- What the sub-class constructors do after `Curve.__init__` has returned `w`:
class_curves.py L265-270 `GGmax_Curve`, L355-368 `Damping_Curve`, L605-619 `Stress_Curve`. -/
def finishCurve (σ : CStore K) (w : Where K) (chk : Bool) : CurveKind → Except PyErr (Where K) × CStore K
  | .plain => (.ok w, σ)
  | .ggmax => rangeCheck σ w 1 chk
  | .damping .bad => (.error .valueError, σ)
  | .damping .one => rangeCheck (w.scale σ 1 100).2 (w.scale σ 1 100).1 100 chk
  | .damping .pct => rangeCheck σ w 100 chk
  | .stress .bad => (.error .valueError, σ)
  | .stress .pa => (.ok (w.scale σ 1 (1 / 1000)).1, (w.scale σ 1 (1 / 1000)).2)
  | .stress .kpa => (.ok w, σ)
  | .stress .mpa => (.ok (w.scale σ 1 1000).1, (w.scale σ 1 1000).2)
  | .stress .gpa => (.ok (w.scale σ 1 1000000).1, (w.scale σ 1 1000000).2)

/-- Construction of a curve object: `Curve.__init__`, then the sub-class's own part. -/
def mkCurve (σ : CStore K) (a : Nat) (kind : CurveKind) (su : Unit1)
    (interp : Option (List (K × K) → List (K × K))) (chk : Bool) : Except PyErr (Where K) × CStore K :=
  match mkBase σ a su interp chk with
  | (.ok w, σ') => finishCurve σ' w chk kind
  | (.error e, σ') => (.error e, σ')

/-- class_curves.py L1223-1264 `_produce_output_file_name`, from the file name without
directory and extension (`os.path.split`/`splitext` are not modelled). -/
def outputFileName (pre ext : List Char) (stem : Option (List Char)) : Except PyErr (List Char) :=
  match stem with
  | none => .error .valueError
  | some s =>
    let site := if "curve_".toList <:+: s then s.drop 6 else s
    .ok (pre ++ "_x_".toList ++ site ++ ".".toList ++ ext)

end Alias

end Verif
