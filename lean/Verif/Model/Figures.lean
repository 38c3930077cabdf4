import Verif.Model.Motion
import Verif.Model.Profile
import Verif.Model.PlotLine

/-!
Model of the drawing methods: which lines are drawn on which axes of which figures, with which labels and options
(`helper_generic.py` `_process_fig_ax_objects`, `helper_site_response.py` `plot_motion`, `class_ground_motion.py`,
`class_curves.py`, `class_frequency_spectrum.py`, `class_Vs_profile.py`, `class_svm.py`).

Figures and axes are numbered in the order of their creation; a figure that exists is not closed.  Of an axes object the lines,
the label of the vertical axis, the annotations and whether it has been removed from its figure are modelled; grids, limits,
titles, sizes, colours and the layout are not.  Drawing functions return the canvas also if they raise.
-/

namespace Verif

/-- A dictionary of keyword arguments. -/
abbrev Kw (V : Type) := List (String × V)

/-- A line: coordinates, and the keyword arguments handed to `plot`. -/
structure PlLine (K V : Type) where
  x : List K
  y : List K
  opts : Kw V
  deriving DecidableEq

/-- A text at a point that states a value and its unit. -/
structure PlNote (K : Type) where
  x : K
  y : K
  value : K
  unit : String
  deriving DecidableEq

/-- An axes object: the figure in which it was created, and what has been drawn. -/
structure PlAx (K V : Type) where
  fig : Nat
  lines : List (PlLine K V)
  ylabel : String
  notes : List (PlNote K)
  gone : Bool
  deriving DecidableEq

/-- All figures and axes. -/
structure Canvas (K V : Type) where
  figs : Nat
  axs : List (PlAx K V)
  deriving DecidableEq

section
variable {K V : Type}

/-- `plt.figure(...)` without a number. -/
def newFig (c : Canvas K V) : Nat × Canvas K V := (c.figs, { c with figs := c.figs + 1 })

/-- `fig.add_subplot(...)`; `a` is what is drawn on it. -/
def pushAx (c : Canvas K V) (a : PlAx K V) : Nat × Canvas K V := (c.axs.length, { c with axs := c.axs ++ [a] })

/-- helper_generic.py L90-149 `_process_fig_ax_objects` with `ax_proj=None`. -/
def processFigAx (c : Canvas K V) (fig ax : Option Nat) (bypass : Bool) : Nat × Option Nat × Canvas K V :=
  let r : Nat × Canvas K V := match fig with
    | none => newFig c
    | some f => (f, c)
  if ax = none ∧ bypass = false then
    let s := pushAx r.2 ⟨r.1, [], "", [], false⟩
    (r.1, some s.1, s.2)
  else (r.1, ax, r.2)

/-- `ax.plot(x, y, **opts)`: ValueError when the numbers of coordinates differ; AttributeError when there is no axes object. -/
def drawOn (c : Canvas K V) (ax : Option Nat) (l : PlLine K V) : Except PyErr Nat × Canvas K V :=
  match ax with
  | none => (.error .attributeError, c)
  | some i =>
    if l.x.length ≠ l.y.length then (.error .valueError, c)
    else (.ok i, { c with axs := c.axs.modify i fun a => { a with lines := a.lines ++ [l] } })

/-! ## Curves and spectra -/

/-- What a curve object has for drawing: the (interpolated) curve, and the data it was made from. -/
structure PlCurve (K : Type) where
  shown : List (K × K)
  raw : List (K × K)
  deriving DecidableEq

/-- class_curves.py L164-174: the line of a curve. -/
def curveLine (interp : Bool) (cv : PlCurve K) (kw : Kw V) : PlLine K V :=
  if interp then ⟨cv.shown.map Prod.fst, cv.shown.map Prod.snd, kw⟩ else ⟨cv.raw.map Prod.fst, cv.raw.map Prod.snd, kw⟩

/-- class_curves.py L119-184 `Curve.plot`. -/
def curvePlot (c : Canvas K V) (interp : Bool) (cv : PlCurve K) (fig ax : Option Nat) (kw : Kw V) :
    Except PyErr (Nat × Nat) × Canvas K V :=
  let r := processFigAx c fig ax false
  match drawOn r.2.2 r.2.1 (curveLine interp cv kw) with
  | (.ok i, c') => (.ok (r.1, i), c')
  | (.error e, c') => (.error e, c')

/-- class_curves.py L783-793: the loop over the curves; the keyword arguments are not handed on. -/
def multiLoop (interp : Bool) (f : Nat) (ax : Option Nat) : List (PlCurve K) → Canvas K V → Except PyErr Unit × Canvas K V
  | [], c => (.ok (), c)
  | cv :: cvs, c =>
    match curvePlot c interp cv (some f) ax [] with
    | (.ok _, c') => multiLoop interp f ax cvs c'
    | (.error e, c') => (.error e, c')

/-- class_curves.py L727-795 `Multiple_Curves.plot` (and the methods of the subclasses, L865-922 and L1334-1391, which hand all
arguments on to it); without curves the loop does nothing. -/
def multiPlot (c : Canvas K V) (interp : Bool) (cvs : List (PlCurve K)) (fig ax : Option Nat) (_kw : Kw V) :
    Except PyErr (Nat × Option Nat) × Canvas K V :=
  let r : Nat × Option Nat × Canvas K V := match fig, ax with
    | none, _ => processFigAx c none none false
    | some f, none => processFigAx c (some f) none false
    | some f, some i => (f, some i, c)
  match multiLoop interp r.1 r.2.1 cvs r.2.2 with
  | (.ok _, c') => (.ok (r.1, r.2.1), c')
  | (.error e, c') => (.error e, c')

/-- class_frequency_spectrum.py L159-222 `Frequency_Spectrum.plot` for a real spectrum `s` with amplitudes `a`. -/
def spectrumPlot (c : Canvas K V) (freq s a : List K) (plotAbs : Bool) (fig ax : Option Nat) (kw : Kw V) :
    Except PyErr (Nat × Nat) × Canvas K V :=
  let r := processFigAx c fig ax false
  match drawOn r.2.2 r.2.1 ⟨freq, if plotAbs then a else s, kw⟩ with
  | (.ok i, c') => (.ok (r.1, i), c')
  | (.error e, c') => (.error e, c')

/-! ## Keyword arguments -/

/-- A call `f(x, ..., k1=v1, ..., **kw)` of a function with the positional parameters `pos` (all given) and the keyword
parameters `params`, which has a `**` parameter if `rest`: TypeError if an argument is given twice or is unknown, else the
keyword arguments. -/
def callKw (pos params : List String) (rest : Bool) (explicit kw : Kw V) : Except PyErr (Kw V) :=
  if ∃ p ∈ kw, p.1 ∈ pos ++ explicit.map Prod.fst then .error .typeError
  else if rest = false ∧ ∃ p ∈ explicit ++ kw, p.1 ∉ params then .error .typeError
  else .ok (explicit ++ kw)

/-- The value of an argument. -/
def kwGet (kw : Kw V) (k : String) : Option V := (kw.find? fun p => p.1 == k).map Prod.snd

/-- The keyword parameters of `plot_Vs_profile` (helper_site_response.py L946-957). -/
def vsPlotParams : List String := ["fig", "ax", "figsize", "dpi", "title", "label", "c", "lw", "max_depth"]

/-- class_Vs_profile.py L255-261: the title, and the keyword arguments that are left.  `file` is the name of the file from which
the profile was read. -/
def vsTitle (file : Option V) (kw : Kw V) : Option V × Kw V :=
  match file with
  | some f => (some f, kw)
  | none => match kwGet kw "title" with
    | some t => (some t, kw.filter fun p => p.1 != "title")
    | none => (none, kw)

/-- class_Vs_profile.py L219-272 `Vs_Profile.plot`: the arguments that `plot_Vs_profile` gets besides the figure, the axes and
the sizes.  `nul` is None.  (`fig`, `ax`, `figsize` and `dpi` are parameters of `plot` itself and cannot be in `kw`.) -/
def vsPlotArgs (nul : V) (file : Option V) (kw : Kw V) : Except PyErr (Kw V) :=
  let r := vsTitle file kw
  callKw ["vs_profile"] vsPlotParams true [("title", r.1.getD nul)] r.2

/-- class_svm.py L319-332 `SVM.plot`, likewise; `ttl` is the title made from Vs30 and z1. -/
def svmPlotArgs (ttl : V) (kw : Kw V) : Except PyErr (Kw V) := callKw ["vs_profile"] vsPlotParams true [("title", ttl)] kw

/-- helper_site_response.py L1019: what `ax.plot` gets: `c`, `lw`, `label` and the arguments that are no parameters of
`plot_Vs_profile`.  `dflt` are the defaults of `c`, `lw` and `label`. -/
def vsLineOpts (dflt : Kw V) (args : Kw V) : Kw V :=
  (dflt.map fun p => (p.1, (kwGet args p.1).getD p.2)) ++ args.filter fun p => p.1 ∉ vsPlotParams

/-- class_parameters.py L200-252 `Parameter.plot_curves`: the lines of the two axes.  The keyword arguments are not used. -/
def paramLines (strain ggmax damping : List K) (_kw : Kw V) : PlLine K V × PlLine K V :=
  (⟨strain, ggmax, []⟩, ⟨strain, damping, []⟩)

/-- The keyword parameters of `amplify_motion` (helper_site_response.py). -/
def amplifyParams : List String := ["taper", "extrap_tf", "deconv", "show_fig", "dpi", "return_fig_obj"]

/-- class_site_effect_adjustment.py L172-179 `Site_Effect_Adjustment.run`: the keyword arguments that `amplify_motion` gets;
`tr` and `show` are the values of `extrap_tf` and `show_fig`. -/
def adjustArgs (tr show_ : V) (kw : Kw V) : Except PyErr (Kw V) :=
  callKw ["input_motion", "transfer_function_single_sided"] amplifyParams false [("show_fig", show_), ("return_fig_obj", show_), ("extrap_tf", tr)] kw

/-- The keyword parameters of `log_smooth`. -/
def smoothParams : List String := ["win_len", "window", "lin_space", "fmin", "fmax", "n_pts", "fix_ends", "beta1", "beta2"]

/-- class_frequency_spectrum.py L259-266 `Frequency_Spectrum.get_smoothed`: the keyword arguments that `log_smooth` gets.
(`win_len`, `show_fig` and `log_scale` are parameters of `get_smoothed` itself.) -/
def getSmoothedArgs (winLen fmin fmax lin : V) (kw : Kw V) : Except PyErr (Kw V) :=
  callKw ["signal"] smoothParams false [("win_len", winLen), ("fmin", fmin), ("fmax", fmax), ("lin_space", lin)] kw

end

/-! ## Motions -/

section
variable {K V : Type} [Field K] [LinearOrder K] [FloorRing K]

/-- `np.argmax(np.abs(a))`: the first index of the largest magnitude. -/
def argmaxAbs (a : List K) : Nat := a.findIdx fun x => decide (|x| = maxAbs a)

/-- helper_site_response.py L350: the index of the sample beside which the peak value is written. -/
def noteIdx (n k : Nat) : Nat := (min ((k : ℤ) + roundHalfEven ((n : K) / 40)) n).toNat

/-- `ax.remove()`: a second removal raises. -/
def removeAx (c : Canvas K V) (ax : Option Nat) : Except PyErr Unit × Canvas K V :=
  match ax with
  | none => (.error .attributeError, c)
  | some i => match c.axs[i]? with
    | none => (.error .other, c)
    | some a => if a.gone then (.error .other, c)
      else (.ok (), { c with axs := c.axs.modify i fun a => { a with gone := true } })

/-- helper_site_response.py L343: units on the labels. -/
def accelUnit (unit : String) : String := if unit = "cm" then "gal" else unit ++ "/s/s"

/-- helper_site_response.py L264-372 `plot_motion` for a two-column array of finite numbers: the figure and the three axes. -/
def plotMotion (c : Canvas K V) (x : Rec K) (unit : String) (fig ax : Option Nat) :
    Except PyErr (Nat × Nat × Nat × Nat) × Canvas K V :=
  let t := x.map Prod.fst
  let a := x.map Prod.snd
  if a = [] then (.error .valueError, c)
  else match numInt x with
  | .error e => (.error e, c)
  | .ok (v, u) =>
    let r := processFigAx c fig ax false
    match removeAx r.2.2 r.2.1 with
    | (.error e, c1) => (.error e, c1)
    | (.ok _, c1) =>
      if unit ≠ "m" ∧ unit ≠ "cm" then (.error .valueError, c1)
      else
        let k := argmaxAbs a
        match t[k]?, a[k]? with
        | some tk, some ak =>
          let ls : List (PlLine K V) := [⟨t, a, []⟩, ⟨[tk], [ak], []⟩]
          match t[noteIdx (K := K) t.length k]? with
          | none => (.error .indexError, (pushAx c1 ⟨r.1, ls, "", [], false⟩).2)
          | some tn =>
            let s1 := pushAx c1 ⟨r.1, ls, "Acceleration [" ++ accelUnit unit ++ "]", [⟨tn, ak, maxAbs a, accelUnit unit⟩], false⟩
            let s2 := pushAx s1.2 ⟨r.1, [⟨t, v.map Prod.snd, []⟩], "Velocity [" ++ (unit ++ "/s") ++ "]", [], false⟩
            let s3 := pushAx s2.2 ⟨r.1, [⟨t, u.map Prod.snd, []⟩], "Displacement [" ++ unit ++ "]", [], false⟩
            (.ok (r.1, s1.1, s2.1, s3.1), s3.2)
        | _, _ => (.error .indexError, c1)

/-- class_ground_motion.py L327-388 `Ground_Motion.plot`. -/
def motionPlot (σ : CStore K) (m : Motion K) (c : Canvas K V) (showAs : String) (fig ax : Option Nat) :
    Except PyErr (Nat × Nat × Nat × Nat) × Canvas K V :=
  if showAs = "m" then plotMotion c (m.accel.read σ) showAs fig ax
  else if showAs = "cm" then
    match unitConvert σ m .cmpss with
    | .ok x => plotMotion c x showAs fig ax
    | .error e => (.error e, c)
  else if showAs = "g" then
    match unitConvert σ m .g with
    | .ok x => plotMotion c x showAs fig ax
    | .error e => (.error e, c)
  else (.error .valueError, c)

end

end Verif
