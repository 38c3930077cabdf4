import Verif.Model.ParamSets

/-!
Model of `Multiple_Damping_Curves.get_all_HH_x_params` and `get_all_H4_x_params` (class_curves.py L987-1221), with
`show_fig=False` (a figure that is not shown is not saved either, helper_site_response.py L2523-2540), and of the text file
that `fit_all_damping_curves` writes (helper_site_response.py L2542-2553).  Numbers are written without rounding.
-/

namespace Verif

/-- What a call leaves behind: its result, the arrays, and the file written, if any. -/
structure AllOut where
  result : Except PyErr (PMulti (Dict ℝ))
  store : CStore ℝ
  written : Option (List Char × FC ℝ)

/-- class_curves.py L1073, L1191: the prefix of the file names. -/
def SoilModel.pre : SoilModel → List Char
  | .hh => "HH".toList
  | .mkz => "H4".toList

/-- class_curves.py L1081, L1199: the fit of one layer. -/
noncomputable def SoilModel.fit : SoilModel → Optimiser → List (ℝ × ℝ) → Except PyErr (Dict ℝ)
  | .hh => fitHH
  | .mkz => fitH4

/-- class_curves.py L1068-1069, L1071-1073 and L1186-1187, L1189-1191: a file name that is needed and not given. -/
def needName (m : SoilModel) (ext : String) (stem : Option (List Char)) (need : Bool) (given : Option (List Char)) :
    Except PyErr (Option (List Char)) :=
  match need, given with
  | true, none =>
    match outputFileName m.pre ext.toList stem with
    | .error e => .error e
    | .ok n => .ok (some n)
  | _, g => .ok g

/-- helper_site_response.py L2542-2553: the file with one column of parameters per layer (`np.column_stack` of nothing raises
ValueError). -/
def paramFile (m : SoilModel) (ds : List (Dict ℝ)) : Except PyErr (FC ℝ) :=
  if ds = [] then .error .valueError
  else
    match to2D m.ser ds with
    | .error e => .error e
    | .ok rows => .ok (.mat rows)

/-- class_curves.py L987-1103 `get_all_HH_x_params`, L1105-1221 `get_all_H4_x_params`, for the arrays at `addrs` and the file
name `stem` (without directory and extension) the curves were read from. -/
noncomputable def allParams (m : SoilModel) (opt : Optimiser) (σ : CStore ℝ) (addrs : List Nat) (par : Option (List (List Nat)))
    (stem : Option (List Char)) (saveTxt saveFig : Bool) (txt fig : Option (List Char)) : AllOut :=
  match needName m "png" stem saveFig fig with
  | .error e => ⟨.error e, σ, none⟩
  | .ok _ =>
    match needName m "txt" stem saveTxt txt with
    | .error e => ⟨.error e, σ, none⟩
    | .ok name =>
      match fitAll (m.fit opt) σ addrs par with
      | (.error e, σ') => ⟨.error e, σ', none⟩
      | (.ok ds, σ') =>
        match saveTxt, name with
        | true, some n =>
          match paramFile m ds with
          | .error e => ⟨.error e, σ', none⟩
          | .ok f => ⟨newParams m (.list (ds.map .dict)), σ', some (n, f)⟩
        | _, _ => ⟨newParams m (.list (ds.map .dict)), σ', none⟩

end Verif
