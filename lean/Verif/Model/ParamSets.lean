import Verif.Model.Fit
import Verif.Model.Nonlinear

/-!
Model of the parameter containers `HH_Param_Multi_Layer` and `MKZ_Param_Multi_Layer` (class_parameters.py): construction from
files, arrays and lists, and saving to a file.  Numbers are written and read without rounding (the code writes five
significant digits by default).
-/

namespace Verif

/-- class_parameters.py L295-300, L333-338 `serialize`. -/
def SoilModel.ser : SoilModel → Dict ℝ → Except PyErr (List ℝ)
  | .hh, d => serializeHH d
  | .mkz, d => serializeMKZ 0 d false

/-- class_parameters.py L602, L612 / L695, L705: an array of parameters to a dictionary, with default arguments. -/
def SoilModel.deser : SoilModel → List ℝ → Except PyErr (Dict ℝ)
  | .hh, a => deserializeHH a
  | .mkz, a => deserializeMKZ 1 a false

/-- The element class of the container. -/
def SoilModel.elem : SoilModel → PCls
  | .hh => .hh
  | .mkz => .mkz

/-- The container class. -/
def SoilModel.multi : SoilModel → PMultiCls
  | .hh => .hh
  | .mkz => .mkz

/-- What the constructor can be given. -/
inductive PSource
  | file (f : FC ℝ)
  | arr (a : Arr ℝ)
  | list (l : List (PArg (Dict ℝ)))
  | other

/-- class_parameters.py L622-625, L715-718: the base constructor, `HH_Param(...)` or `MKZ_Param(...)` for dictionaries. -/
def newParamList (m : SoilModel) (l : List (PArg (Dict ℝ))) : Except PyErr (PMulti (Dict ℝ)) :=
  PMulti.mk' m.multi m.elem (fun _ d => (Param.mk' m.keys d).map Param.data) l

/-- class_parameters.py L588-625 `HH_Param_Multi_Layer.__init__`, L681-718 `MKZ_Param_Multi_Layer.__init__`; the columns of an
array are the layers (helper_generic.py L708-750 `extract_from_param_format`, which raises TypeError unless the array has two
dimensions). -/
def newParams (m : SoilModel) : PSource → Except PyErr (PMulti (Dict ℝ))
  | .file f =>
    match toArr f with
    | .error e => .error e
    | .ok (.mat cols) => do
      let ds ← cols.mapM m.deser
      newParamList m (ds.map .dict)
    | .ok _ => .error .typeError
  | .arr (.mat cols) => do
    let ds ← cols.mapM m.deser
    newParamList m (ds.map .dict)
  | .arr _ => .error .typeError
  | .list l => newParamList m l
  | .other => .error .typeError

/-- class_parameters.py L504-532 `save_txt`: the file written for a container (an empty file if there are no layers). -/
def saveParams (m : SoilModel) (c : PMulti (Dict ℝ)) : Except PyErr (FC ℝ) :=
  match to2D m.ser (c.items.map PObj.val) with
  | .error e => .error e
  | .ok rows => .ok (.mat rows)

end Verif
