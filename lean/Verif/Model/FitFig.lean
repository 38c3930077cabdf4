import Verif.Model.AllParams

/-!
Model of the figures of damping-curve fits and of the arguments that reach the fit of one layer
(`helper_site_response.py` `_plot_damping_curve_fit`, `fit_all_damping_curves`, `_fit_single_layer_loop`).
-/

namespace Verif

/-! ## Arguments -/

/-- The settings of a fit, in the order of the signatures (helper_site_response.py L2370-2378). -/
structure FitSet (V : Type) where
  useScipy : V
  popSize : V
  nGen : V
  lower : V
  upper : V
  eta : V
  seed : V
  showFig : V
  verbose : V

/-- helper_site_response.py L2494-2507: the tuple `other_params[0]` without its first entry (the fitting function); `no` is
Python's `False`. -/
def otherParams {V : Type} (no : V) (s : FitSet V) : List V :=
  [s.useScipy, s.popSize, s.nGen, s.lower, s.upper, s.eta, s.seed, no, s.verbose]

/-- helper_site_response.py L2567-2594 `_fit_single_layer_loop`: the keyword arguments of the call of the fitting function
(ValueError if the tuple has another length). -/
def loopKw {V : Type} (no : V) : List V → Except PyErr (Dict V)
  | [useScipy, popSize, nGen, lower, upper, eta, seed, showFig, verbose] =>
    .ok [("use_scipy", useScipy), ("n_gen", nGen), ("eta", eta), ("pop_size", popSize), ("lower_bound_power", lower),
      ("upper_bound_power", upper), ("seed", seed), ("show_fig", showFig), ("verbose", verbose), ("parallel", no)]
  | _ => .error .valueError

/-! ## Figures -/

/-- One pair of axes: the line "data" and the line "curve fit" (strain and damping in percent). -/
structure FitPanel where
  data : List (ℝ × ℝ)
  fit : List (ℝ × ℝ)

/-- helper_site_response.py L2347-2349: `strain`, with the default limits and the 50 points of `np.logspace`. -/
noncomputable def fitStrain : List ℝ := logspace (1 / 10000 / 100) (10 / 100) 50

/-- helper_site_response.py L2336-2357 `_plot_damping_curve_fit`. -/
noncomputable def fitPanel (m : SoilModel) (data : List (ℝ × ℝ)) (p : Dict ℝ) : Except PyErr FitPanel :=
  match data with
  | [] => .error .indexError
  | (e0, x0) :: rest => do
    let x ← dampingFromParam m p fitStrain
    return ⟨(e0, x0) :: rest, (fitStrain.map (· * 100)).zip (x.map fun y => y * 100 + x0)⟩

/-- helper_site_response.py L2524-2525, L2528: rows of the figure, and the place of panel `j`: row and column. -/
def panelRows (n : Nat) : Nat := (n + 3) / 4
def panelPlace (j : Nat) : Nat × Nat := (j / 4, j % 4)

/-- helper_site_response.py L2366-2534 `fit_all_damping_curves` with `show_fig=True`: the parameters and the panels.  The arrays
are drawn as they are after the fits. -/
noncomputable def fitAllFig (m : SoilModel) (opt : Optimiser) (σ : CStore ℝ) (addrs : List Nat) (par : Option (List (List Nat))) :
    Except PyErr (List (Dict ℝ) × List FitPanel) :=
  match fitAll (m.fit opt) σ addrs par with
  | (.error e, _) => .error e
  | (.ok ds, σ') => do
    let ps ← (addrs.zip ds).mapM fun q => fitPanel m (σ'[q.1]?.getD []) q.2
    return (ds, ps)

/-- helper_hh_model.py L229-286, helper_mkz_model.py L127-175, with `show_fig=True`. -/
noncomputable def fitOneFig (m : SoilModel) (opt : Optimiser) (σ : CStore ℝ) (a : Nat) : Except PyErr (Dict ℝ × FitPanel) :=
  match fitOne (m.fit opt) σ a with
  | (.error e, _) => .error e
  | (.ok d, σ') => do
    let p ← fitPanel m (σ'[a]?.getD []) d
    return (d, p)

end Verif
