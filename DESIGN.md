# Formal model of PySeismoSoil in Lean 4

Source: `/repo/PySeismoSoil` (pinned commit), read as text, never run.
Lean project: `/verif/lean` (Lean 4.33.0, Mathlib 4.33.0, no other dependency).

## 1. Layout

| Directory | Content |
|---|---|
| `lean/Verif/Model/*.lean` | transcription of the Python code, function by function; every definition cites file and lines and lists simplifications |
| `lean/Verif/Spec/*.lean` | small, independent specifications (what the English says), not using model helpers |
| `lean/Verif/Proof/*.lean` | helper lemmas |
| `lean/Verif/Props/*.lean` | the property theorems `Cxx_...` with a concrete, non-trivial witness (`example`) beside each |

## 2. Modelling conventions

* **Numbers.** numpy float arrays are `List K` with `K` an arbitrary linearly ordered field (theorems hold for ℚ and ℝ;
  ℚ gives computable witnesses).  Where powers, logs, exponentials are used `K` is ℝ; transfer functions and DFTs are over ℂ.
  *Floating-point rounding, overflow and NaN/inf are not modelled* unless a definition says so.  `Model/Float.lean` defines
  rounding to the nearest IEEE double (ties to even, subnormals; no overflow, NaN or fused operations; the operations are the exact
  operation followed by one rounding), proved against `Spec.IsDouble`/`Spec.NearestDouble`; `Model/FloatCode.lean` models the code
  behind C142-C150 with it (`np.sum` adds fewer than eight numbers one after the other; `np.floor_divide` is the exact integer
  part; `np.interp`, `np.linspace` and `np.arange` as numpy computes them), `Model/FloatProfile.lean` and `Model/FloatInt.lean` that behind
  C181-C183.  C33, C35, C131, C184-C187, C189-C191, C194, C196-C198 compare what is computed with the continuous quantity it stands for (wave equation, area of a
  loop, integral of the motion, oscillator response, quarter-wavelength frequency).
* **Exceptions.** `Except PyErr α`; the constructor of `PyErr` is the Python exception class.  Error branches are explicit;
  partial operations (`x[-1]` of an empty array, division by zero) are guarded so that Lean's totalised versions never decide a claim.
* **Loops** become structural recursion or folds, `while` loops recursion with a proved termination measure or fuel that is proved sufficient.
* **Mutation.** Where aliasing matters (C09, C10, C18, C20, C21, C39, C59, C68, C73, C117, C121) arrays live in an explicit store
  (`Addr → array`), and methods are functions `Store → Except PyErr (result × Store)`.
* **Oracles.** scipy optimisers, random draws, `griddata`, FFT-free external kernels (Fortran), the file system content and
  worker scheduling are *parameters*; theorems quantify over all of them.
* **Violations.** Where the code breaks the property as stated, the negation is proved, in general where a general condition was found and on a concrete witness
  otherwise (`Cxx_..._violated`), and the part that holds is proved with the suffix `_partial`.

## 3. Trusted base

* Lean's kernel; axioms at most `propext`, `Classical.choice`, `Quot.sound` (checked with `#print axioms`). No `sorry`,
  no `native_decide`, no `bv_decide`, no own axioms.
* The faithfulness of the transcription (reviewed by hand against the cited lines).
* Exact arithmetic instead of IEEE doubles, except in C142-C150 and C181-C183 (and the double value of the default 0.05 Hz in C131); integer dtypes are represented in C154 only (64-bit overflow is not), elsewhere arrays hold real numbers.
* The semantics attributed to Python and to libraries, stated as definitions:
  * built-in containers, `UserDict`/`UserList` methods, string and path operations, `str(n)`, `rjust`; the number formats `%.nf`, `%.pg`, `%d`
    (`Model/NumFormat.lean`: the number written, rounded correctly, ties to even; which characters are used is left out);
  * numpy: `linspace`, `logspace`, `geomspace`, `arange` (⌈s/step⌉ elements), `cumsum`, `diff`, `interp` for increasing `xp`
    (clamped at the ends), `unwrap`, `searchsorted` (number of smaller elements), `argmin`/`argmax` (first one), `convolve`
    (`'same'` starts at full index (M-1)//2), `hanning`/`hamming`/`bartlett`/`blackman`, `column_stack` (ValueError for
    columns of different lengths), `genfromtxt` (squeezes one-row and one-column tables), views versus copies of slices,
    `np.round` (half to even), complex `angle`;
  * scipy: `fft`/`ifft` = the documented finite sums; `sosfilt` = cascade of transposed direct-form-II sections from rest;
    `ndimage.convolve1d(mode='wrap', origin)` with its check of the origin; `erf` = its integral;
  * `multiprocessing.Pool.map`: chunks, pickled one by one, run in any order and finishing in any order; results put in place by
    index; the error of the first failing chunk to finish is raised;
  * `os.makedirs`, `os.chdir`, `os.remove`, `os.removedirs`, `glob` on a tree of files and directories without links and permissions.
* Parameters (theorems hold for every value of them): `butter` (filter design), `curve_fit`, `differential_evolution`/DEAP,
  `griddata`, `fsolve`, random draws, the wavelet filters of pywt, the Fortran kernel of the nonlinear simulation, the content of
  the CSV files of site factors (only *which* files exist is transcribed from the directory listing: frequencies 150 values,
  periods 240, 11 rows per factor file), worker schedules, the current time.  Where a theorem needs something of a parameter (e.g.
  "the optimiser respects its bounds", "the filters are orthogonal") this is an explicit hypothesis.  The filters of pywt's
  default `dmey` are orthogonal only approximately.
* Not modelled: the looks of figures (what is drawn on which axes with which options is modelled in `Model/Figures.lean`, `Model/ResPlot.lean`, `Model/ProfilePlot.lean`, `Model/FitFig.lean`, `Model/PlotLine.lean`, `Model/Printed.lean`, `Model/MotionFigs.lean`, `Model/HhFig.lean` and `Model/ScoreFigs.lean`, the texts of the scores in `Model/ScoreText.lean`; reading of text files with `numpy.genfromtxt` in `Model/LoadTxt.lean`; console output and warnings in `Model/Console.lean`, without padding and without the output of tqdm and of the external libraries), `os.chmod`, Windows/macOS paths, the construction of `Ground_Motion` objects inside result packaging (the arrays are followed
  instead), the sharing of `_material_number` in `check_layer_count`.

## 4. Properties

Plans written before the proofs (first 78 properties); later properties follow the same shapes.

| Id | Plan |
|---|---|
| C01 | `thk2dep`, `dep2thk` over lists; induction on lists (cumulative sums and differences are inverse). |
| C02 | `query_Vs_at_depth` with `searchsorted(side='right')` as a count; spec: relation "layer i contains depth z"; induction on the layer list. |
| C03 | `calc_VsZ` loop with break; spec: travel time = sum over layers of overlap with [0,Z] divided by Vs; induction with generalised accumulators. |
| C04 | From C03 by bounding each slowness term. |
| C05 | From C03: overlap sums are additive under a split. |
| C06 | `calc_basin_depth` loop; first-match characterisation, monotone in threshold; induction. |
| C07 | `stratify` incl. `allclose` tolerance; violated: total not preserved just above an integer ratio (witness); `_partial` for exact/no-tolerance ratios; sub-layer bound. |
| C08 | `Vs_Profile.truncate` loop; total thickness and velocity at every depth (via C02's spec). |
| C09 | store model of `truncate` (row views); violated (witness); `_partial`: unchanged when depth is not interior to a layer. |
| C10 | store model of the constructor; violated for g/cm^3 and %; `_partial` for kg/m^3 & '1' and for 2-column data. |
| C11 | `check_Vs_profile_format`, constructor; invariant theorem over all inputs. |
| C12 | `query_Vs_given_thk`; length violated for trailing 0 with midpoint; `_partial` otherwise. |
| C13 | `Multiple_Curves` as state machine; invariant by induction on op list; slice deletion violates the counter; `_partial` without it. |
| C14 | `Param_Multi_Layer` likewise; `\_\_setitem\_\_` and slice deletion violate; `_partial`. |
| C15 | `Parameter` + inherited UserDict methods as state machine; `\|=` violates; `_partial` for all others. |
| C16 | serialise/deserialise as in code; round trips by cases, lists by induction. |
| C17 | column slicing and hstack; induction on number of layers. |
| C18 | store model of `Curve.\_\_init\_\_`; violated for unit '1'; `_partial` for unit '%'. |
| C19 | cumsum/diff; induction. |
| C20 | store model; violated; `_partial` for SI units and one-column data. |
| C21 | store model of `save_accel`; violated; `_partial` for SI unit. |
| C22 | running sums; induction. |
| C23 | `\_\_arias_time_bounds` loop; induction. |
| C24 | `truncate` index arithmetic; violated for windows past the end/negative; `_partial` inside. |
| C25 | `scale_motion`; algebra over lists (max of absolute values). |
| C26 | `_time_stepping`; linear recursion; induction. |
| C27 | spacing check; violated for shrinking intervals; `_partial` for growing ones. |
| C28 | closed-form coefficients over ℝ; the recursion samples a function solving the ODE with piecewise-linear forcing (derivative computations). |
| C29 | index arithmetic of the Hermitian extension, DFT over `ZMod n`/`Fin n`; symmetry ⇒ real. |
| C30 | DFT inversion in Mathlib (`ZMod.dft`) or own finite sums. |
| C31 | `find_f0` loop; violated (witness [1,2,1]); `_partial` when the peak is not at the last but one sample. |
| C32 | `robust_unwrap` repair; violated for an initial ascent; `_partial` for non-increasing signals and length. |
| C33 | `linear_tf` matrices over ℂ. |
| C34 | `linear_tf`: e^{a+b}=e^a e^b and alpha=1 at the artificial interface; product of matrices. |
| C35 | A,B recursion versus matrix product; induction on layers. |
| C36 | loop with abstract step; `verbose` in the break; violated; `_partial` for inputs that never converge early. |
| C37 | same loop model; bound & first-convergence (with verbose). |
| C38 | `np.interp` bound; invariant over iterations. |
| C39 | store model; violated; `_partial` for the other columns. |
| C40 | trapezoid running sum; inequalities by induction. |
| C41 | pointwise algebra. |
| C42 | real analysis with `Real.rpow`. |
| C43 | real analysis with `Real.rpow`. |
| C44 | real analysis; convex combination. |
| C45 | running sum; induction. |
| C46 | case analysis and `Real.rpow` positivity. |
| C47 | `Real.rpow` monotonicity; default argument path violates. |
| C48 | grid search as list minimisation over abstract area function; case analysis. |
| C49 | `get_damping_curves` shift; violated for H4. |
| C50 | capping index arithmetic over lists. |
| C51 | branch model; violated for z1 ≤ 2.5 and Vs_cap=False. |
| C52 | while loop with draws as a stream `ℕ → K`; termination by 2 m lower bound, invariant. |
| C53 | decision logic over ℝ-like field. |
| C54 | finite table of files (transcribed from the directory listing) checked completely and lifted to all inputs. |
| C55 | erf as ∫ of the Gaussian density (Mathlib integrals); monotone, bounded. |
| C56 | state machine over call histories. |
| C57 | Cauchy–Schwarz on lists. |
| C58 | `Pool.map` as: any permutation schedule of task executions; results by index. |
| C59 | store model; violated. |
| C60 | check + index safety. |
| C61 | effectful trace model with a crash point; violated for crashes before the chdir back; `_partial` for normal return. |
| C62 | file-system model as set of paths; violated parts named; `_partial`. |
| C63 | path computations; violated; `_partial` for default. |
| C64 | decision table model of `_filter_kernel`. |
| C65 | weighted averages; induction. |
| C66 | argmin as first minimum; induction. |
| C67 | `linspace`; induction. |
| C68 | store model; serial violates; order theorem. |
| C69 | decision table; violated. |
| C70 | violated; `_partial` on show_fig=True etc. |
| C71 | length arithmetic through padding, oversampling, truncation. |
| C72 | case analysis over ranges. |
| C73 | store model of C09/C10 with writes by the caller; violated (the thickness column is shared); `_partial` for writes to other columns / half-space-completed profiles. |
| C74 | `to_txt` precision argument; unit outputs pointwise; violated for the default `precision`. |
| C75 | `get_curve_matrix` ignores its two file arguments; violated. |
| C76 | `_produce_output_file_name` on character lists; violated for a non-leading `curve_`; `_partial` otherwise. |
| C77 | decision logic of the constructor; violated for acceleration in m/s; `_partial` for unknown names and g/gal. |
| C78 | `linspace` against the time column; `_partial` for uniform axes starting at 0; violated for one-column data and for other start times. |

Where each property is proved:

| Id | Title | Status | Modules | Theorems |
|---|---|---|---|---|
| C01 | Thickness/depth conversions are mutually inverse | proved | Props/ProfileGeometry | 7 |
| C02 | A depth query returns the Vs of the layer containing that depth | proved | Props/ProfileGeometry | 3 |
| C03 | VsZ is the time-averaged velocity of the top Z metres | proved | Props/ProfileGeometry | 4 |
| C04 | VsZ lies between the slowest and the fastest layer | proved | Props/ProfileGeometry | 2 |
| C05 | VsZ does not depend on how homogeneous layers are subdivided | proved | Props/ProfileGeometry | 1 |
| C06 | Basin depth is the shallowest depth at which Vs reaches the threshold | proved | Props/ProfileGeometry | 3 |
| C07 | Re-discretisation (stratify) preserves the soil column | partial | Props/GeometryExact, Props/ProfileGeometry | 4 |
| C08 | Truncating a profile at a depth keeps everything above that depth | proved | Props/VsProfile | 2 |
| C09 | truncate leaves the original profile object unchanged | partial | Props/ProfileExact, Props/VsProfile | 3 |
| C10 | Constructing a Vs_Profile does not modify the array passed in | partial | Props/ProfileExact, Props/VsProfile | 4 |
| C11 | A constructed Vs_Profile satisfies the format rules | partial | Props/ProfileExact, Props/VsProfile | 9 |
| C12 | Querying Vs for given thicknesses returns one Vs per layer | partial | Props/GeometryExact, Props/ProfileGeometry | 5 |
| C13 | Multi-curve containers behave like typed Python lists | partial | Props/Containers, Props/Exact | 8 |
| C14 | Multi-layer parameter containers behave like typed Python lists | partial | Props/ContainerExact, Props/Containers | 8 |
| C15 | A parameter object always has exactly its allowable keys | partial | Props/ContainerExact, Props/Containers | 11 |
| C16 | Parameter serialisation round-trips | proved | Props/Curves | 4 |
| C17 | Curve matrices split and merge without loss | proved | Props/Curves | 6 |
| C18 | Constructing a curve does not modify the array passed in | partial | Props/Curves, Props/MotionExact | 6 |
| C19 | Numerical differentiation undoes numerical integration | proved | Props/Motion | 2 |
| C20 | Constructing a Ground_Motion does not modify the array passed in | partial | Props/MotionExact, Props/MotionObj | 6 |
| C21 | Saving a ground motion does not change it | partial | Props/MotionExact, Props/MotionObj | 7 |
| C22 | Arias intensity is a non-decreasing energy measure | proved | Props/Motion | 3 |
| C23 | Arias time bounds bracket the strong-motion part | partial | Props/GeometryExact, Props/Motion | 5 |
| C24 | Truncating a motion returns the requested time window | partial | Props/Exact, Props/GeometryExact, Props/MotionTrunc | 9 |
| C25 | Scaling a motion hits the target PGA | proved | Props/MotionObj | 4 |
| C26 | Response spectra scale linearly with the motion | proved | Props/MotionObj | 3 |
| C27 | Response spectra require evenly spaced time | partial | Props/MotionObj, Props/ViolMore | 4 |
| C28 | The oscillator recursion is exact for piecewise-linear excitation | proved | Props/Oscillator | 5 |
| C29 | The two-sided transfer function makes filtered motions real | proved | Props/Amplify | 3 |
| C30 | Deconvolution undoes amplification | proved | Props/Amplify | 3 |
| C31 | find_f0 returns the frequency of the first peak | partial | Props/Phase | 5 |
| C32 | robust_unwrap leaves phase samples that need no repair unchanged | partial | Props/Phase, Props/PhaseExact | 11 |
| C33 | Outcrop, incident and borehole transfer functions are consistent | proved | Props/Transfer | 6 |
| C34 | Transfer functions do not depend on subdivision of homogeneous layers | partial | Props/Transfer, Props/TransferStrat | 5 |
| C35 | The two linear solvers agree | proved | Props/Transfer | 2 |
| C36 | Console verbosity does not influence equivalent-linear results | partial | Props/EquivExact, Props/EquivLinear | 4 |
| C37 | Equivalent-linear iterations stop when converged | partial | Props/EquivExact, Props/EquivLinear | 4 |
| C38 | Equivalent-linear moduli and damping stay within the curves | proved | Props/EquivLinear | 2 |
| C39 | The profile returned by the equivalent-linear run is the input soil | partial | Props/EquivLinear, Props/Exact | 3 |
| C40 | Damping from stress-strain curves is physical | proved | Props/Soil | 6 |
| C41 | G/Gmax from stress-strain curves is consistent | proved | Props/Soil | 3 |
| C42 | The MKZ backbone is a degradation curve | proved | Props/Soil | 6 |
| C43 | FKZ stress never exceeds the shear strength | proved | Props/Soil | 3 |
| C44 | The HH model blends MKZ and FKZ | proved | Props/Soil | 6 |
| C45 | Vertical stress is the overburden weight | proved | Props/Calib | 4 |
| C46 | Calibration soil properties are admissible | proved | Props/Calib | 9 |
| C47 | Darendeli G/Gmax curves are degradation curves | partial | Props/Darendeli | 7 |
| C48 | The FKZ optimisation returns parameters within its search range | proved | Props/CalibHH, Props/FkzCross | 6 |
| C49 | Damping calibration starts each curve at the profile damping | partial | Props/CalibCurves, Props/Fit | 3 |
| C50 | Capped SVM profiles never exceed the cap | partial | Props/Svm | 5 |
| C51 | SVM reports a numeric bedrock velocity | partial | Props/Svm, Props/SvmDisc | 11 |
| C52 | Randomised layering fills the basin exactly | proved | Props/SvmRand | 3 |
| C53 | Site factors accept exactly the covered inputs | proved | Props/SiteFactors | 2 |
| C54 | Every accepted site-factor query has its eight reference data sets | proved | Props/SiteFactors | 2 |
| C55 | Goodness-of-fit scores are bounded and signed | proved | Props/Scores | 4 |
| C56 | calc_scores fills exactly the requested score slots | partial | Props/ScoresObj | 7 |
| C57 | The cross-correlation score is at least 0.1 | partial | Props/ScoresRec | 3 |
| C58 | Batch results are in order and schedule-independent | partial | Props/Batch | 7 |
| C59 | Running a batch leaves the options dictionary unchanged | partial | Props/Batch | 2 |
| C60 | Layer counts are checked against material numbers | proved | Props/EquivLinear | 2 |
| C61 | A nonlinear run restores the working directory | partial | Props/Nonlinear | 2 |
| C62 | A nonlinear run never reuses an existing directory | partial | Props/Nonlinear | 6 |
| C63 | Result files go to the requested directory | partial | Props/ResultFiles | 9 |
| C64 | Filter requests are dispatched according to the cut-off frequencies | proved | Props/Filter | 9 |
| C65 | Smoothing keeps spectra within their range | proved | Props/Smooth | 6 |
| C66 | find_closest_index returns a nearest element | proved | Props/MotionObj | 1 |
| C67 | One-column input is given a uniform axis | proved | Props/MotionObj | 2 |
| C68 | Fitting damping curves does not modify the curves | partial | Props/Exact, Props/Fit | 7 |
| C69 | Requested number of CPU cores is honoured | partial | Props/Fit | 2 |
| C70 | Unwrapping phases yields an unwrapped spectrum | partial | Props/FreqSpectrum | 5 |
| C71 | Simulation results always have matching shapes | partial | Props/EveryLayer, Props/EveryLayerKin, Props/EveryLayerOut | 5 |
| C72 | Density and damping correlations are total and positive | proved | Props/ProfileExact, Props/VsProfile | 3 |
| C73 | A Vs profile is independent of later changes to the array it was built from | partial | Props/ProfileExact, Props/VsProfile | 4 |
| C74 | Profile output works with defaults and keeps units consistent | partial | Props/VsProfile | 3 |
| C75 | Saving a curve matrix writes the requested file | partial | Props/Curves | 1 |
| C76 | Output file names are derived by removing the curve_ prefix only | partial | Props/Curves, Props/MotionExact | 3 |
| C77 | The unit must be consistent with the motion type | partial | Props/MotionExact, Props/MotionObj | 4 |
| C78 | The time attribute is the time column | partial | Props/MotionExact, Props/MotionObj | 5 |
| C79 | Transfer functions are finite | proved | Props/Transfer | 3 |
| C80 | Each frequency component is multiplied by the transfer function at its own frequency | partial | Props/Amplify, Props/MotionExact | 3 |
| C81 | Amplification is linear in the motion | proved | Props/Amplify | 1 |
| C82 | Linear site response is defined for every record and keeps the mean | proved | Props/Amplify | 2 |
| C83 | Acceleration, velocity and displacement of a motion belong together | proved | Props/MotionHist | 1 |
| C84 | Unit conversion covers the acceleration units and rejects all others | proved | Props/MotionHist | 1 |
| C85 | Continuation of the transfer function outside its table | proved | Props/AmplifyExt | 1 |
| C86 | A complex transfer function is used with its own values | partial | Props/AmplifyExt, Props/ViolMore | 3 |
| C87 | The re-discretised profile in the results has the densities of the input | partial | Props/EveryLayerOut | 3 |
| C88 | The reported transfer function belongs to the reported frequencies | partial | Props/EveryLayerTf | 2 |
| C89 | Equivalent-linear results are mutually consistent | partial | Props/EveryLayerFlat | 3 |
| C90 | Stress is complex modulus times strain | proved | Props/EveryLayerKin, Props/EveryLayerTf | 3 |
| C91 | The linear every-layer solver is linear in the motion | proved | Props/EveryLayerLin | 1 |
| C92 | Equivalent-linear analysis with strain-independent curves is linear analysis | partial | Props/EveryLayerFlat | 2 |
| C93 | Array scores are the scalar scores, element by element | partial | Props/Scores | 2 |
| C94 | Arias intensity of the scores is the one of the motion class | proved | Props/Scores | 3 |
| C95 | A perfect simulation scores 0 | partial | Props/ScoresRec, Props/ScoresScale | 8 |
| C96 | RMS scores are computed in the requested frequency range | partial | Props/ScoresRec, Props/ScoresScale | 3 |
| C97 | Serial and parallel batch scoring agree | partial | Props/ScoresObj | 4 |
| C98 | Records of different lengths are brought to one time grid | partial | Props/ScoresRec | 1 |
| C99 | Velocity, displacement and strain follow from the accelerations | proved | Props/EveryLayerKin | 2 |
| C100 | A scaled simulation is scored by its scale | proved | Props/ScoresScale | 3 |
| C101 | Nonlinear kernel gets consistent input | proved | Props/KernelTable, Props/NonlinearOut | 4 |
| C102 | Nonlinear results are what the kernel computed | partial | Props/NonlinearOut | 5 |
| C103 | Filters are linear, causal and without phase shift | partial | Props/Filter, Props/FilterResponse | 6 |
| C104 | Smoothing keeps constants | partial | Props/Smooth | 3 |
| C105 | Fourier spectra list each value at its own frequency | partial | Props/Spectrum | 8 |
| C106 | Baseline correction keeps time axis and samples aligned | partial | Props/Baseline | 9 |
| C107 | A frequency spectrum object describes the data it was made from | proved | Props/FreqSpectrum | 6 |
| C108 | The SVM base profile reaches bedrock at z1 | partial | Props/Svm | 5 |
| C109 | Iterating on Vs30 ends with a matching profile | proved | Props/SvmIter, Props/SvmRand | 4 |
| C110 | Compliant randomised profiles are found and meet the documented criteria | partial | Props/SvmRand | 3 |
| C111 | Site factors interpolate the tabulated curves | proved | Props/RaisesExt, Props/SiteInterp | 9 |
| C112 | Site-effect adjustment multiplies the spectrum by the site factors | proved | Props/SiteInterp | 2 |
| C113 | A real spectrum has zero phase | partial | Props/FreqSpectrum | 2 |
| C114 | Darendeli damping is bounded | proved | Props/Darendeli | 3 |
| C115 | HH calibration yields admissible parameters in the documented order | proved | Props/CalibOut | 5 |
| C116 | Calibrated Gmax is the modulus of the profile | partial | Props/CalibCurves | 2 |
| C117 | One parameter set per soil layer | partial | Props/CalibCurves | 2 |
| C118 | Each layer is calibrated to its own G/Gmax curve | partial | Props/CalibCurves | 5 |
| C119 | Fitted parameters respect the bounds and have the right names | proved | Props/Fit | 4 |
| C120 | Normalised curves do not depend on the modulus scale | proved | Props/ParamCurves | 2 |
| C121 | A damping curve is fitted as it is shown | partial | Props/Exact, Props/Fit | 3 |
| C122 | Curves constructed from parameters | proved | Props/ParamCurves | 4 |
| C123 | The optimiser minimises the error of the parameters it returns | proved | Props/ParamCurves | 3 |
| C124 | Wavelet baseline correction subtracts exactly the smooth part | proved | Props/Wavelet | 8 |
| C125 | A profile queried at depths is a profile of the same velocities | proved | Props/Query | 3 |
| C126 | Processing methods of a motion return new, independent motions | partial | Props/MotionMethods | 9 |
| C127 | Comparing two accelerograms gives the ratio of their spectra | partial | Props/Compare | 10 |
| C128 | Sine smoothing is a weighted quadratic mean | partial | Props/SineSmooth | 9 |
| C129 | The scores of a multiple of the measurement depend on the factor only | partial | Props/ScoreProc | 9 |
| C130 | Which simulations can be made | partial | Props/SimInit | 5 |
| C131 | Transfer functions and fundamental frequencies of a profile | partial | Props/Printed, Props/ProfileTf | 8 |
| C132 | Curve containers and curve matrices | partial | Props/CurveSets | 11 |
| C133 | Parameter containers from arrays and files | partial | Props/ParamSets | 8 |
| C134 | The genetic search stays within its bounds and returns the best it has met | proved | Props/Genetic | 7 |
| C135 | Parameters of all damping curves | partial | Props/AllParams | 7 |
| C136 | Tapering only reduces a record, symmetrically, and keeps its middle | partial | Props/Taper | 8 |
| C137 | Root mean squares, Fourier spectrum and response spectra of a motion agree with its records | partial | Props/MotionSpectra | 13 |
| C138 | NaN and infinite elements are refused at construction | partial | Props/NonFinite | 17 |
| C139 | Linear simulation of the motion on the surface | proved | Props/SurfaceRun | 7 |
| C140 | What a results object keeps | partial | Props/SurfaceRun | 3 |
| C141 | The line plotted for a profile is its graph | partial | Props/PlotLine | 6 |
| C142 | Depths and thicknesses in double precision | partial | Props/Exact, Props/FloatDepth | 8 |
| C143 | Truncating a record at whole numbers of time steps in double precision | partial | Props/FloatIndex | 4 |
| C144 | Number of layers of a re-sampled profile in double precision | partial | Props/FloatIndex | 4 |
| C145 | Frequency grid of the transfer functions in double precision | partial | Props/Exact, Props/FloatIndex | 5 |
| C146 | Scaling to a target peak in double precision | partial | Props/FloatMotion | 3 |
| C147 | Arias intensity in double precision | proved | Props/FloatMotion | 1 |
| C148 | Depths of the smooth SVM profile in double precision | partial | Props/FloatInterp | 2 |
| C149 | Reading and saving accelerations in cm/s/s in double precision | partial | Props/FloatMotion | 2 |
| C150 | Interpolated curves stay in range in double precision | partial | Props/FloatInterp | 4 |
| C151 | Mean layer thickness and random layering of the sediment velocity model | partial | Props/SvmLayers | 8 |
| C152 | Spread and correlation of the random velocities of the sediment velocity model | partial | Props/DarendeliFormula, Props/SvmStats | 5 |
| C153 | Parameters and curves returned by fit_MKZ | partial | Props/FitMkz | 4 |
| C154 | Numbers given as integers are treated like the same real numbers | partial | Props/Exact, Props/Typed | 13 |
| C155 | Motion plot shows the recorded motion and its peak | partial | Props/Figures | 11 |
| C156 | Figures and axes that are passed in are used | partial | Props/FiguresArgs | 7 |
| C157 | Keyword arguments are handed on | partial | Props/FiguresArgs | 11 |
| C158 | Only documented exceptions are raised | partial | Props/Raises, Props/RaisesExt, Props/RaisesMore, Props/SiteInterp | 37 |
| C159 | Figures of simulation results show the results | partial | Props/ResPlot | 8 |
| C160 | Everything drawn in a figure of velocity profiles lies within its axes | partial | Props/ProfilePlot | 10 |
| C161 | The figure of damping-curve fits shows the given curves and the fits | partial | Props/FitFig | 9 |
| C162 | Text files hold the numbers to the digits of their format | partial | Props/TextFiles | 6 |
| C163 | A saved accelerogram can be read again | partial | Props/Printed, Props/TextFilesRead | 9 |
| C164 | A saved velocity profile can be read again | partial | Props/Printed, Props/TextFilesRead | 6 |
| C165 | Printing an object shows its numbers | partial | Props/Printed | 5 |
| C166 | The figure of interpolated site factors shows the surrounding tabulated curves and the result | partial | Props/Printed | 5 |
| C167 | The figure of linear_tf shows the transfer functions | proved | Props/Printed | 2 |
| C168 | A text file is read like the array of its numbers | partial | Props/LoadTxt | 12 |
| C169 | Cut-off frequencies of the filters are in Hz and mark half power | partial | Props/FilterResponse | 10 |
| C170 | The figure of Ground_Motion.compare shows the two motions on their common times | partial | Props/MotionCompare | 7 |
| C171 | The figure of Ground_Motion.truncate shows the record before and after | partial | Props/TruncFig | 4 |
| C172 | The figures of the calibration of modulus curves belong to the parameters returned | partial | Props/HhFig | 6 |
| C173 | The printed goodness-of-fit scores are the scores computed | partial | Props/ScoreText | 9 |
| C174 | The figures of the goodness-of-fit scores show what is scored | partial | Props/ScoreFigs | 10 |
| C175 | Warnings about a velocity profile point at the values they name | partial | Props/Console | 7 |
| C176 | The messages of a simulation say what happened | partial | Props/ConsoleRuns | 8 |
| C177 | The report of the equivalent-linear iteration describes the passes made | partial | Props/Console | 5 |
| C178 | The report of the HH calibration shows the parameters returned | partial | Props/ConsoleRuns | 4 |
| C179 | Other warnings appear once and when their condition holds | partial | Props/ConsoleRuns | 14 |
| C180 | Default names of results are different and in order of time | partial | Props/Stamp | 6 |
| C181 | VsZ and Vs30 in double precision | partial | Props/FloatProfile | 5 |
| C182 | Velocities at depths and basin depths in double precision | partial | Props/FloatProfile | 5 |
| C183 | Integration and differentiation of records in double precision | partial | Props/FloatInt | 6 |
| C184 | Damping of a sampled curve approaches the hysteretic damping of the curve | partial | Props/DampSampling | 6 |
| C185 | Records sampled from a smooth motion: integrals, derivative and Arias intensity | partial | Props/SampledMotion | 5 |
| C186 | Response spectra of a sampled motion are those of the motion itself, up to the time step | proved | Props/SampledSpectra | 7 |
| C187 | The fundamental frequency of a uniform soil deposit is Vs / (4 H) | partial | Props/UniformLayer | 5 |
| C188 | Amplifying a motion is time invariant, keeps harmonic motions harmonic and limits the energy | proved | Props/AmplifyLti | 4 |
| C189 | The Fourier spectrum of a sampled motion approximates the Fourier integral of the motion | partial | Props/SampledFourier | 3 |
| C190 | The strain of a layer is the mean of its strain, close to the strain at mid-depth | proved | Props/LayerStrain | 4 |
| C191 | Amplification relative to outcrop does not exceed amplification relative to the motion within the ground | partial | Props/EnergyFlux | 4 |
| C192 | Results for a profile do not depend on the units of length, time and density | proved | Props/Units | 5 |
| C193 | Silence before or after a record does not change its intensity measures | partial | Props/Padding | 9 |
| C194 | Transfer functions tend to those of a rigid body at low and to zero at high frequencies | proved | Props/HighFreq | 3 |
| C195 | Filters are stable | proved | Props/FilterStable | 6 |
| C196 | Response spectra tend to peak acceleration at short periods and to peak velocity and displacement at long periods | partial | Props/SpectraLimits | 7 |
| C197 | For weak motions the equivalent-linear solver agrees with the linear solver | proved | Props/WeakMotion | 3 |
| C198 | Transfer functions depend continuously on the profile, and thin layers have little effect | proved | Props/Sensitivity | 2 |
| C199 | Stiffer ground has a larger VsZ and shallower bedrock | proved | Props/Monotone | 3 |
| C200 | Peaks, response spectra and intensity of the sum of two motions | proved | Props/Superpose | 5 |
| C201 | Limit on the iterations and tolerance of the equivalent-linear solver | proved | Props/EquivLimits | 4 |
| C202 | Exchanging measurement and simulation reverses the score | partial | Props/ScoresSwap | 4 |
| C203 | Darendeli damping grows with strain and falls with confinement | partial | Props/DarendeliShape | 5 |
| C204 | Between tabulated values site factors change linearly and without jumps | proved | Props/SiteLines | 4 |
| C205 | The parameters of the soil models have the documented meaning | proved | Props/HHShape | 9 |
| C206 | The HH stress increases with strain up to the strength | partial | Props/HHShape | 4 |
| C207 | Amplification is bounded by the impedance contrasts and decays with the damping along the path | proved | Props/Contrast | 4 |
| C208 | Results depend on the ground, not on how it is divided into layers | proved | Props/SameGround | 7 |
| C209 | Truncation never raises peak acceleration, Arias intensity or (end cut off) response spectra | proved | Props/TruncMeasures | 6 |
| C210 | Randomised profiles follow from the seed | partial | Props/SvmSeed | 8 |
| C211 | Scores do not change when both motions are multiplied by the same factor | partial | Props/ScoresUnit | 7 |
| C212 | Estimated shear strength grows with depth and stiffness | partial | Props/CalibMono | 4 |
| C213 | Damping computed from MKZ parameters grows with strain and falls with the reference strain | partial | Props/DampGrowth | 6 |
| C214 | Over a rigid base the motion returned for the base is the input motion | proved | Props/PeakProfiles, Props/RigidBase | 3 |
| C215 | Profiles of peak values are the peaks of the reported histories | proved | Props/PeakProfiles | 3 |
| C216 | Reversing the direction of the motion reverses the response and nothing else | proved | Props/Reversal | 4 |
| C217 | Results do not depend on the time at which a record begins | proved | Props/TimeShift | 5 |
| C218 | Signal processing treats both directions of a motion alike | partial | Props/Polarity | 6 |
| C219 | Goodness-of-fit scores tell a simulation of the wrong polarity from a good one | partial | Props/Polarity | 7 |
| C220 | Repeating an operation with the same arguments changes nothing | proved | Props/Repeat | 5 |
| C221 | A soil column can be cut: its upper part, driven by the motion calculated at the cut, responds like within the whole column | proved | Props/CutColumn | 2 |
| C222 | The order in which a motion passes two deposits or transfer functions does not matter | proved | Props/Order | 2 |
| C223 | Peak acceleration, velocity, displacement, duration and Arias intensity limit each other | proved | Props/PeakBounds | 3 |
| C224 | The order of filters and integrations does not matter | proved | Props/FilterOrder | 3 |
| C225 | The sediment velocity model is the published velocity function of depth | proved | Props/SvmFormula | 5 |
| C226 | Darendeli curves are the published ones, with the damping of the Masing loop on the hyperbola | proved | Props/DarendeliFormula, Props/DarendeliMkz | 7 |
| C227 | Estimated densities are the published function of velocity and depth | proved | Props/Density | 4 |

## 5. Where the code breaks the property

Every line is a theorem (the sentence is its doc comment); all are proved for the model of the pinned commit.

* `C07_total_thickness_violated`: C07 fails: a 3.00001 m layer with Vs = 225 m/s becomes four 1 m sub-layers, i.e. the soil column grows from 3.00001 m to 4 m. (The ratio is within `np.allclose` of 3, but its ceiling is 4.)
* `C09_original_violated`: C09 fails: truncating a two-layer profile (10 m + 10 m) at 5 m shortens the original's first layer, so a later truncation at 15 m yields a 10 m deep profile instead of a 15 m deep one.
* `C102_nohalf_violated`: **C102 is violated** for a profile without half space: if the kernel writes as many columns of accelerations as the control file announces (one more than the number of layers), the run does not return.
* `C102_one_layer_violated`: **C102 is violated** for a single soil layer that needs no subdivision: whatever the kernel writes, the run does not return, since a table with one column is read as a one-dimensional array.
* `C103_delay_violated`: It delays: the symmetric pulse 0 0 1 0 0 becomes 0 0 ½ ½ 0.
* `C103_zero_phase_violated`: The filters are documented to have zero phase, so that reversing the record reverses the answer. Among the filters the code can apply, only multiplications by a constant have this property.
* `C104_lin_ends_violated`: `lin_smooth` is documented to extend the signal by reflected copies so that the ends are kept; it does not. For every window of four or more samples, the first sample of a smoothed positive constant is too small.
* `C105_constant_violated`: A constant record of value `c`: the only coefficient that is not zero is labelled `1 / (N dt)` instead of 0 — and no row is labelled 0.
* `C105_cosine_violated`: A cosine of `m` cycles, below the Nyquist frequency: the row labelled with its frequency `m / (N dt)` holds 0, and its magnitude `N / 2` is in the row labelled `(m + 1) / (N dt)`.
* `C106_delay_violated`: The answer is late by one sample: where no filtering takes place, sample `i` of the answer is sample `i - 1` of the record (less the pre-event mean).
* `C106_erased_violated`: A record that, after removal of the pre-event mean, changes sign exactly once is erased: the answer is zero throughout.
* `C108_depth_violated`: On sediments deeper than 2.5 m the half space always lies above `z1`.
* `C10_caller_array_violated`: C10 fails for densities in g/cm^3: the caller's array is rescaled, so the second profile built from the same array has a density of 1.8 million kg/m^3.
* `C10_twice_violated`: C10 is violated by every five-column array with densities in g/cm³ or damping in percent: a second object built from the same array has other densities or damping ratios than the first.
* `C110_endless_cap_violated`: The base profile with `Vs_cap=900` is such a case, for every Vs30, depth above 2.5 m and random stream.
* `C110_endless_violated`: If the last velocity of the base profile is below 1000 / 1.05 m/s (e.g. `Vs_cap=900`, or `Vs_cap=False` on soft sediments), no randomised profile ever complies: the search never ends, whatever the random numbers.
* `C113_real_phase_violated`: At every negative real value the phase is π, not zero.
* `C116_violated`: Without curves the density column is ignored: every layer lighter than 1650 kg/m³ gets a modulus above the one of the profile.
* `C117_violated`: Without half space the deepest soil layer gets no parameters, and a strength profile with one entry per soil layer is refused.
* `C118_violated`: Two layers of material 1: the object demands two curves, but the second one has no influence whatever it is, and both layers get the parameters of the first curve.
* `C11_formula_all_violated`: C11/C72 are violated by every undocumented `xi_rho_formula` and every two-column array: no error, zero damping in all layers, which the format check rejects.
* `C11_formula_violated`: C11/C72 fail for an undocumented `xi_rho_formula`: no error, zero damping.
* `C11_halfspace_all_violated`: C11 is violated by every five-column array that ends in a layer of positive thickness with material number 0 if a half space is added: the object is made, with a profile that the format check rejects. (All other arrays: `C11_construct_partial`.)
* `C11_halfspace_material_violated`: C11 fails for a five-column array ending in a row of positive thickness and material number 0 with `add_halfspace=True`: the object holds a soil layer with material number 0, which the format check itself rejects.
* `C121_violated`: With interpolation and damping given as ratios, the fit works on the ratios as if they were percent: for every fit that can tell a curve from one a hundred times smaller the parameters are not those of the curve shown.
* `C126_shared_violated`: Requests that the filter answers by returning the array passed in (high-pass at or below 0, low-pass at or above the Nyquist frequency) give a motion which shares its acceleration with the original: saving the "filtered" motion in g divides the accelerations of the original by 9.81 as well.
* `C127_first_sample_violated`: A record starting at time 0 loses its first sample: two records which differ in the acceleration at time 0 only give the same aligned records.
* `C127_short_violated`: With smoothing (the default), records that have fewer than 29 samples at the common times cannot be compared: the smoothing window of 15 points is longer than the spectrum.
* `C128_end_violated`: The folding at the upper end is wrong: it overwrites instead of adding. The smoothed value one window width below the end is 0 for every spectrum, however large its values.
* `C128_index_violated`: A narrow window (at most two steps on each side) and a long spectrum: an index runs beyond the work arrays.
* `C129_fourier_violated`: Score 9 of a multiple is not the score of its factor as soon as the scored range reaches the frequency one window width below the end of the spectrum (as with the default `fmax`): the smoothed spectra are zero there, which counts as perfect agreement.
* `C12_halfspace_all_violated`: C12 is violated by every list of thicknesses that ends in a zero: there is no velocity for the last entry. The other velocities are those at the mid-points.
* `C12_halfspace_violated`: C12 fails for mid-point queries of a thickness array ending with a half space: the velocity array is one element short of the thickness array.
* `C130_deleted_violated`: The count that is checked is not the number of parameter sets: after a slice of the parameters has been deleted, a nonlinear simulation is still made although no set is left at all.
* `C131_top_violated`: C131, violated: the default table is asked for up to 30 Hz in steps of 0.05 Hz, and 30 is 600 times 0.05; but the table of a valid profile has 599 frequencies and its last is below 29.951 Hz, because the double 0.05 is a little more than 1/20. A fundamental frequency of 30 Hz is never returned.
* `C132_late_check_violated`: C132 fails for values out of range: the constructor accepts a matrix whose curves are not valid (`get_curve_matrix` returns it), and only asking for the curve objects raises ValueError.
* `C132_lengths_violated`: C132 fails when the longest G/Gmax curve and the longest damping curve have different numbers of points: the pair is accepted but its matrix cannot be made (ValueError), although every curve is brought to the longest one of its own kind.
* `C132_one_row_violated`: C132 fails for files with a single row (curves with one point): the file is read as a one-dimensional array and TypeError is raised, although the same curves can be put into a container as arrays.
* `C132_zero_strain_violated`: C132 fails for a curve that starts at strain zero (a valid strain of a curve object) and has fewer points than the longest curve: the logarithmic resampling raises ValueError.
* `C133_h4_file_violated`: C133 fails for parameter files in the documented H4 layout (`gamma_ref`, 0, `s`, `beta`, as written by `serialize_params_to_array(…, to_files=True)` and as in the "H4_x_SITE_NAME.txt" files): `MKZ_Param_Multi_Layer(filename)` reads them as `gamma_ref, s, beta, Gmax`. Every layer gets the exponent 0, and its modulus reduction is the same constant at every strain, whatever `gamma_ref` and `beta` are.
* `C133_no_layers_violated`: C133 fails for no layers, too: a container that was emptied (`del`, or an empty slice) saves an empty file without complaint, which cannot be loaded again (TypeError), although the container itself can be made from the empty list.
* `C133_one_layer_violated`: C133 fails for one layer: the file that `save_txt` writes for a container with a single layer has one column, is read as a one-dimensional array, and cannot be loaded again (TypeError).
* `C135_one_curve_violated`: C135 fails for one curve: the file has one column and cannot be loaded (TypeError).
* `C136_two_columns_violated`: Two-column records cannot be tapered, although the documentation allows them: TypeError for every record.
* `C137_fourier_bins_violated`: No row of a Fourier spectrum has frequency zero: the mean of the record (the coefficient of zero cycles) is reported at the frequency of one cycle over the record.
* `C137_fourier_short_violated`: A motion of two samples has a double-sided spectrum, but its single-sided spectrum is rejected with a ValueError that asks for the frequency interval.
* `C137_rms_displ_violated`: For a motion given as displacement (uniform time axis), `rms_veloc` is the root mean square of its velocity, but `rms_displ` is that of the displacement minus its first value, which differs for instance for a displacement that ends everywhere where it starts, away from zero.
* `C137_rms_veloc_violated`: For a motion given as velocity (uniform time axis), `rms_veloc` is the root mean square of the velocity minus its first value; it is not the root mean square of `veloc`, for instance when the velocity is constant and not zero.
* `C138_matrix_violated`: The property fails for curve matrices: every two-dimensional array whose number of columns is a multiple of four is kept by `Multiple_GGmax_Damping_Curves(data=…)` and handed out again, with NaN elements (such as `np.genfromtxt` makes from unreadable entries) and whatever its type.
* `C138_rejected_argument_violated`: The property fails for every array of the kind: a record of two columns with a number that is not finite in it, in a unit that is not an SI one, is rejected, and yet every non-zero value of its second column means that the caller's array has been changed.
* `C138_rejected_array_violated`: The property fails for the array passed in: a two-column record with a NaN, given in g, is rejected, but its accelerations have been multiplied by 9.81 already.
* `C138_spectrum_violated`: The property fails for spectra: a two-column array of at least two rows is kept whatever its elements are.
* `C13_slice_class_violated`: C13 fails for a base-class container of damping curves: a slice of it accepts a G/Gmax curve, which the container itself rejects.
* `C13_slice_delete_violated`: C13 fails: after `del foo[:]` on three curves, `len(foo)` is 2 although no curve is left.
* `C140_maxima_violated`: The property fails for maxima: `max_a_v_d` given without `max_strain_stress` (or the other way round) is dropped without a message, whatever it is, although the attribute is documented to be the argument.
* `C141_descending_violated`: The property fails for every `max_depth` above the top of the last layer (other than 0): the line goes back up from there, across depths of other velocities.
* `C142_roundtrip_violated`: C142, violated: layers of 0.1 m and 0.2 m on a half-space turned into depths and back: the second thickness is not 0.2 m.
* `C142_thin_layer_violated`: C142, violated: a layer of positive thickness can disappear: below 4096 m, the top and bottom of a layer of 10^-13 m are the same number, so that the way back gives thickness 0.
* `C143_violated`: C143, violated: with a step of 0.1 s the window from 0 to 0.3 s has two samples instead of three, and with a step of 0.005 s the window from 0 to 0.145 s has 28 instead of 29.
* `C144_violated`: C144, violated: a profile of three layers of 3.2 m on a half-space, sampled again with layers of 3.2 m, gets four layers; one of 0.1 m and 1.1 m, sampled with layers of 0.4 m, gets four instead of three.
* `C145_default_violated`: C145, violated: with the default resolution 0.05 Hz and maximum 30 Hz there are 599 frequencies, and the last is below 29.96 Hz.
* `C146_violated`: C146, violated: a record with peak 0.1 m/s/s scaled to 0.3 g has a peak below 0.3 g.
* `C148_violated`: C148, violated: for `z1` = 3 m the last depth is exactly `z1 - thk_addl_layer`, which `np.arange` is to leave out, and there are seven depths instead of six.
* `C149_violated`: C149, violated: an acceleration of 0.23 cm/s/s read and saved again is not 0.23 cm/s/s.
* `C14_base_slice_violated`: C14 fails: slicing a base-class container always raises TypeError.
* `C14_set_violated`: C14 fails: any object can be assigned into an HH container.
* `C14_slice_assign_violated`: C14 fails: slice assignment changes the number of layers but not the count.
* `C14_slice_delete_violated`: C14 fails: slice deletion leaves a wrong layer count.
* `C150_below_zero_violated`: C150, violated: this curve has values between 0 and 1 and is accepted as it is, but sampled at 11 strains from 0.1 % to 1 % one of its values is negative, and the constructor of `GGmax_Curve` raises ValueError.
* `C151_retry_violated`: C151, violated: "keeps trying until fsolve() properly converges": if the first call does not converge, all further calls, made with the same arguments, do not either, and the loop never ends.
* `C152_negative_violated`: C152, violated: from 1600 m/s on, which profiles with a larger `Vs_cap` contain, the "standard deviation" is negative and falls without bound.
* `C153_extra_columns_violated`: C153, violated: the number of columns is not checked: with one to three columns too many, `fit_MKZ` returns a matrix with as many columns, the last of which are all zero.
* `C153_identify_violated`: C153, violated: the data do not determine the parameters: `2 gamma_ref` and `2^s beta` give the same curve, also inside the bounds of the fit. `gamma_ref` is therefore not the reference strain of the soil, and fits of the same data need not agree.
* `C154_convert_violated`: The other unit conversion, on a copy: exact in gal, TypeError in g for integer-valued motions, where the same motion with real numbers is converted.
* `C154_profile_violated`: C154 fails for five-column profiles given as integers with damping in percent or density in g/cm^3: TypeError. For all other arguments, and for two columns, integers and real numbers give the same profile.
* `C154_save_violated`: C154 fails when saving in g: accelerations of less than 9.81 m/s/s, given as integers, are all written as 0.
* `C154_stress_curve_violated`: C154 fails for stress curves given as integers in Pa, MPa or GPa: TypeError, after the strain column of the caller has been converted.
* `C154_stress_violated`: C154 fails for the vertical stress: a layer of 1 m with a density of 1001 kg/m^3 has a stress of 4909.905 Pa at its middle, and 4909 Pa if its thickness is given as an integer.
* `C154_zero_motion_violated`: C154 fails for every integer record with values below 100 gal: the constructed motion is at rest, with a peak ground acceleration of 0, and no error or warning is given.
* `C155_g_violated`: C155 fails for the documented unit 'g': it is converted to g and then refused with ValueError, after a figure has been made.
* `C155_growing_violated`: In particular, a motion of more than twenty samples that grows until its last sample cannot be drawn.
* `C155_near_end_violated`: C155 fails: a record whose first peak is within a fortieth of the record length of its end cannot be drawn: the annotation is looked up one past the end of the time column, and IndexError is raised after the figure has been made.
* `C155_velocity_violated`: C155 fails for motions given as velocities that do not start from zero: what is drawn as velocity is not the velocity of the object, but the velocity less its first value.
* `C156_axes_only_violated`: C156 fails when axes are passed in without their figure: a new figure without any axes is made and returned, and the returned axes are those of another figure.
* `C156_motion_violated`: C156 fails for motions: axes that are passed in are removed from their figure, nothing is drawn on them, and they are none of the axes returned.
* `C157_adjust_violated`: C157 fails for the site-effect adjustment: its keyword arguments are documented as those of `matplotlib.pyplot.plot`, but each of them other than `dpi` (for instance `color`) raises TypeError.
* `C157_multi_violated`: C157 fails for several curves: the keyword arguments have no influence on what is drawn; every line is drawn without options.
* `C157_param_violated`: C157 fails for the curves of a parameter set: the two lines are drawn without the options.
* `C157_svm_title_violated`: C157 fails for the sediment velocity model: no title can be given (TypeError).
* `C157_vs_title_violated`: C157 fails for titles of profiles: a profile that was read from a file cannot be drawn with a title, which would be passed twice (TypeError).
* `C158_motion_short_violated`: C158 fails for motions of less than two samples: IndexError (or, for a single row without a time interval, a ValueError about the interval).
* `C158_one_step_violated`: A kernel run of one time step (tables of one row, read as 1D arrays): ValueError if there are at least two interfaces, and IndexError — named by no docstring — if there is one.
* `C158_print_scores_violated`: Printing a score object without any scores raises ZeroDivisionError, exactly then: `print` of a fresh object fails.
* `C158_profile_empty_violated`: C158 fails for arrays without rows: IndexError, which is not documented.
* `C158_results_violated`: An array of accelerations of the wrong shape raises AssertionError, which no docstring names.
* `C159_smoothed_alone_violated`: Without the unsmoothed transfer function the smoothed one is not drawn.
* `C159_smoothed_violated`: C159 fails for smoothed transfer functions on other frequencies: their amplitudes are drawn at the frequencies of the unsmoothed one if there are as many of them, and ValueError is raised otherwise.
* `C159_times_violated`: C159 fails for records whose times differ by less than the tolerance: the output is drawn at the times of the input.
* `C15_ior_violated`: C15 fails for `|=`: a foreign key enters the object without an error.
* `C15_update_all_violated`: `update` with a foreign key: the entries before it are assigned, the rest is not, and the KeyError is raised: C15 is violated whenever one of the entries before changes something.
* `C15_update_violated`: C15 fails for `update`: the keys before the foreign one are already changed when the KeyError is raised.
* `C160_no_depths_violated`: The figure of a query at no depths cannot be drawn, although the query itself has an (empty) result.
* `C160_query_profile_violated`: The figure of a query that returns a profile cuts off the profile that was queried: for every profile and every single depth less than half of that to which the profile is drawn.
* `C161_serial_violated`: The figure of serial fits does not show the curves that were given: wherever a curve has small-strain damping, the panel shows another curve.
* `C162_digits_lost_violated`: A number that has more digits than are written does not come back: the table read differs from the one saved. (The files of calibrated parameters and of simulation results have six digits, those of `save_txt` five.)
* `C163_200_hertz_violated`: A record from 0 s sampled at 200 Hz and longer than 100.015 s is written with repeated times.
* `C163_repeated_times_violated`: The file of a long record holds the same time more than once: within a decade of the time axis whose fifth digit is larger than the time step, some two consecutive samples get the same written time. `e` is the decade (2: from 100 s to 1000 s, where the fifth digit is 0.01 s), `n + 1` the number of samples from the `j`-th on that lie in it.
* `C163_zero_step_violated`: If the first two samples get the same written time, the motion read from the file has the time step 0 and no velocity and no displacement at any time, whatever the accelerations.
* `C164_thin_layer_violated`: A profile with a layer of at most 5 mm above its last row cannot be read from its own file: the thickness is written as 0.00, and reading raises ValueError.
* `C165_interval_violated`: C165 fails for fine spectra: the interval is shown as 0.00 Hz exactly if it is at most 5 mHz, as for the Fourier spectrum of every record of 200 s or more.
* `C165_thin_layer_violated`: C165 fails for thin layers: the line of a layer shows a thickness of 0.00 (as that of a half-space does) exactly if the layer is not thicker than 5 mm.
* `C166_label_violated`: C166 fails for the tabulated 1.25 g: its four lines are labelled 1.2 g.
* `C168_motion_header_violated`: C168 fails for motions with header lines: `Ground_Motion` takes keyword arguments for `genfromtxt` and does not hand them on. Every file with header lines is rejected though `skip_header` is given, while the array of its numbers is accepted.
* `C168_nan_row_violated`: C168 fails for spectra and matrices of curves: a header line becomes a row of NaN, which nothing refuses.
* `C168_one_layer_violated`: C168 fails for a profile of one layer (a half-space): its array is accepted, the file of the same numbers is not, because `genfromtxt` drops the dimension of length one.
* `C169_near_nyquist_violated`: Two-sided requests whose upper cut-off frequency is within one ten-thousandth of the Nyquist frequency lose that cut-off: the band-pass filter leaves more than half of the power there, whatever the lower cut-off.
* `C169_near_zero_violated`: Two-sided requests whose lower cut-off frequency is within the first frequency bin (one over the duration) lose that one.
* `C170_first_sample_violated`: C170 fails for records that start at time 0: their first sample is not shown. Two records that differ in the acceleration at time 0 only give the same figure, in either role.
* `C170_short_violated`: C170 fails for short records: with the default smoothing there is no figure if the common times are fewer than 29.
* `C171_times_violated`: C171 fails for records that do not start at time 0 (all one-column records start at their time step): they are drawn from time 0 on, every sample too early by the first time.
* `C172_first_point_violated`: C172 fails at the first point of the line of the given curve (labelled "MKZ" for curves that are not given): it is drawn at zero stress, although the G/Gmax value there, where it is not zero, stands for another stress.
* `C173_nan_violated`: C173 fails with a NaN among the scores: the average printed by `calc_scores` is NaN, while the one of `print()` is that of the other scores.
* `C173_old_violated`: C173 fails after a call for other scores: `print()` still shows, and counts in the average, a score kept from an earlier call, whatever frequency range that call was for.
* `C173_stored_violated`: C173 fails for the scores kept in the object: a computed score of 0.1 is kept as another number, which `get_scores` gives and `print()` shows.
* `C174_times_violated`: C174 fails for records that are not sampled at the same times (other step or other start, same number of samples): in every panel the simulation is drawn at wrong times.
* `C175_percent_violated`: C175 fails for damping in percent: no message is printed about it, however large the damping is (the same profile with its damping as a ratio is warned about).
* `C175_thin_surface_violated`: C175 fails for five columns: nothing is ever said about the surface layer, however thin it is: the output consists of at most the two warnings about density and damping.
* `C175_water_violated`: C175 fails for a density of exactly 1000 kg/m³ (water): it is reported as lower than 1,000 kg/m³.
* `C176_batch_verbose_violated`: C176 fails for batches in several ways: a serial run pays no attention to `verbose`, and prints whatever the simulations print, with the options given to them, also with `verbose=False`.
* `C176_linear_saved_violated`: C176 fails for linear simulations: where the results are saved is never said, although the run is verbose and files are written (the equivalent-linear and nonlinear simulations do say it).
* `C176_nonlinear_done_violated`: C176 fails for nonlinear simulations: `Done.` is printed before the figures are made and the files are written, so it is printed also by runs that fail afterwards.
* `C177_unconverged_violated`: C177 fails for an iteration that does not converge: when all passes are used up without convergence, the output consists of the lines of the passes only, nothing tells the user that the result did not converge.
* `C178_numbering_violated`: C178 fails: the two lines of one and the same layer carry different numbers. The lines of MKZ parameters count the layers from 0, the lines of the optimisation from 1.
* `C179_svm_value_violated`: C179 fails: the warning does not tell the Vs30 it is about. It contains no number, and it is the same for all Vs30 out of range (the format `%.2f` in it is never filled in).
* `C179_twice_violated`: C179 fails for `get_GGmax`: the message is printed twice.
* `C180_overwritten_violated`: C180 fails: two linear simulations that save their results within the same second use the same directory and the same names, without any warning, and the files of the first are overwritten.
* `C181_homogeneous_violated`: C181, violated: VsZ of a homogeneous soil is not its velocity. 30 m of soil of 180 m/s (the boundary between the site classes D and E) have a Vs30 below 180 m/s, 30 m of soil of 360 m/s (between C and D) a Vs30 below 360 m/s.
* `C182_interface_violated`: C182, violated: layers of 0.1 m and 0.2 m over a third one: at 0.3 m, where the third layer begins, the velocity of the second one is returned, since the sum of 0.1 and 0.2 is the double above 0.3.
* `C183_absorbed_violated`: C183, violated: an acceleration that follows one 2^55 times as large is lost: differentiating the velocity gives 0 instead of it.
* `C183_roundtrip_violated`: C183, violated: a constant acceleration of 1 m/s/s sampled every 0.01 s does not come back from its velocity.
* `C184_sampling_violated`: The property fails in that the damping at a strain depends on the other strains asked for: for every MKZ parameter set and every strain `e`, the damping at `e` is 0 if it is asked for alone, positive if it is asked for together with `e/2`, and smaller than the hysteretic damping of the model in both cases.
* `C185_first_acceleration_violated`: The property fails for the first sample: whatever the velocity, the first acceleration is 0 with any time step, so that no multiple of the time step bounds the error if the derivative there is not 0.
* `C187_outcrop_violated`: C187: `get_f0_RO` does not give the fundamental frequency of every uniform deposit. Damping makes the amplification fall, linearly in the frequency, before the resonance lets it rise: whenever `3π · 0.05 Hz · (1 - α²) H / Vs ≤ α ξ (1 - ξ²)` it is larger at the first tabulated frequency than at the second, and 0.05 Hz is returned, whatever `Vs / (4 H)` is.
* `C189_scale_violated`: C189: the spectrum of one and the same motion depends on the sampling: wherever the Fourier integral over the record (of length `T`) is not zero, the amplitudes returned for finer and finer sampling exceed every bound.
* `C18_curve_violated`: C18 fails: two damping curves built from the same array given in unit 1. The second construction multiplies the shared array again, so that also the first curve now shows strains and damping 100 times too large.
* `C18_rejected_curve_violated`: C18 fails even when construction is rejected: the array has been rescaled before the ValueError.
* `C191_amplification_violated`: C191 is violated, in general: for a soft layer on any damped base with impedance ratio below about twice the damping of the base (`ρ Vs √(1 + ξ²) < 2 ξ ρ_b V_b`) the amplification relative to rock outcrop is larger than the one relative to the motion within the ground, at the frequency of which the layer is three eighths of a wave length, whenever the layer has little enough damping.
* `C193_extend_violated`: C193 is violated: one sample of zero after any motion whose last sample is not zero increases its Arias intensity.
* `C193_spectra_violated`: C193 is violated: for every frequency, the response to a single sample of 1 doubles when a sample of zero is put before it (undamped oscillator, time step a quarter of its period): the oscillator starts at rest at the first sample, and the rise of the motion to that sample is missing.
* `C196_long_violated`: C196: for a record of constant acceleration `c`, spectral velocity does not tend to the peak velocity of the integrated record at long periods, but to a value that is smaller by `|c| dt`.
* `C196_pga_violated`: C196: if the first sample of a record is larger than all others, spectral acceleration does not tend to the peak ground acceleration: the oscillator is at rest at the time of the first sample, and the values between samples are not looked at.
* `C202_magnitude_violated`: C202 fails for all pairs of different values: the score of a simulation that is too large is larger in magnitude than the score of the exchanged pair, in which the simulation is too small by the same factor.
* `C203_strain_violated`: C203 fails for every soil state: from 300 times the reference strain on, damping is smaller than at 50 times the reference strain.
* `C206_violated`: Whatever the other parameters are, if the MKZ stress is above the strength at some strain, there are transition strains for which the HH stress is above the strength at that strain and lower at a larger one: `tau_HH` neither stays below `Tmax` nor is it a non-decreasing function of the strain.
* `C20_twice_violated`: C20 is violated by every two-column array in a unit other than SI: a second motion built from the same array has its values converted twice, and so has the first motion from then on.
* `C20_violated`: C20 fails: two motions constructed from one array in cm/s/s. The second shows values 100 times smaller, and so does the first from then on.
* `C210_clock_violated`: C210 is violated: without a seed, calls in the same second of any minute return the same profile, so that there are not more than 62 different ones, whatever the random number generator.
* `C210_range_violated`: C210 is violated: a seed of 2³¹ or more, or of -1 or less, raises ValueError, which is not documented, although the seed is only required to be a number.
* `C210_search_violated`: C210 is violated: the search for a compliant profile without a seed makes the same attempt again and again until the second changes, and if none of the 62 profiles complies it never ends.
* `C211_violated`: C211 is violated: multiplied by a small enough factor, any two motions get perfect RMS scores and any two final intensities perfect scores, because of the absolute thresholds.
* `C212_jump_violated`: C212 is violated: where the stress is at most a quarter of the pre-consolidation stress (the upper 20 m or so), any layer stiffer than 760 m/s and up to 1000 m/s gets a smaller strength than a layer of 760 m/s.
* `C213_sparse_violated`: C213, violated: for every MKZ soil with an exponent below 1 and every strain `e` there is a larger strain `E` such that, asked for the damping at `e/2`, `e` and `E`, `MKZ_Param` returns a smaller damping at `E` than at `e`: the long step cuts off the area under the curve.
* `C218_baseline_violated`: C218 is violated for the baseline correction: take any motion which is at rest for five samples or more and positive from then on. In the opposite direction it is erased (all samples of the corrected motion are zero), while the corrected motion itself is not zero: zero samples count as positive in the search for the first and the last change of sign. The design of the filter is any with a direct term in each section, as Butterworth filters have.
* `C219_d10_violated`: C219 is violated by score 10, the cross-correlation: it takes the absolute value of the correlation.
* `C219_d1234_violated`: C219 is violated by scores 1 to 4: with either or both of the motions in the opposite direction they are the same, so a simulation of the wrong polarity is not told apart.
* `C219_d567_violated`: C219 is violated by scores 5 to 7.
* `C219_d89_violated`: C219 is violated by scores 8 and 9.
* `C219_violated`: C219 is violated by all scores of the package (without baseline correction): the simulation in the opposite direction gets the scores of the simulation.
* `C21_twice_violated`: C21 is violated by every motion: the second of two saves in the same unit writes values converted twice.
* `C21_unknown_all_violated`: C21 is violated by every unknown unit, and by every unit of length or velocity: the values in m/s/s are written, no error is raised.
* `C21_unknown_unit_violated`: C21 fails: an unknown unit is not rejected; the SI numbers are written.
* `C21_violated`: C21 fails: after saving in g the motion's acceleration is in g, and saving again in g writes other numbers.
* `C23_low_all_violated`: C23 is violated by every low threshold which the first sample has reached already: the lower bound is time 0, whether the record contains it or not.
* `C23_low_zero_violated`: C23 fails for a low threshold of 0 when the record does not start at time 0: the lower bound lies outside of the record.
* `C24_arias_offset_violated`: C24 fails for truncation by Arias intensity of a record starting at time 10. The strong part, the third to fifth sample at times 12 to 14, lies inside of the record, but its absolute times are used as offsets and the result is an error.
* `C24_before_start_all_violated`: C24 is violated by every window which ends `k` or more, but less than `k + 1`, intervals before time 0, provided the record is at least `k + 2` samples long: it is answered with the record without its last `k` samples.
* `C24_before_start_violated`: C24 fails: the window from -9 to -3, before the start of the record, is answered with the first three samples.
* `C27_shorter_violated`: C27 fails for every record whose later intervals are no longer than the first one, however uneven: no error is raised, and the spectra are those of the accelerations spaced evenly by the first interval.
* `C27_violated`: C27 fails: intervals 1, 1/2 are accepted.
* `C31_second_last_violated`: C31 fails for every spectrum whose first peak is its second-last point: the last frequency is returned.
* `C31_violated`: C31 fails: the peak is at frequency 2, the function returns 3.
* `C32_initial_climb_violated`: C32 fails for every signal that begins with a complete climb, of however few samples: all samples before the first peak `p` are replaced by a line which starts at the **last** sample of the signal and ends at `-π` (the trough index -1 is used as an array index). All other samples are treated as documented.
* `C32_violated`: C32 fails: the signal 0, 1, 1/2 has no multi-sample climb, but its first sample is replaced (the trough index -1 is used as an array index).
* `C34_stratify_violated`: C34 fails for the re-discretisation of the code. Soil of 3.00001 m with Vs = 225 m/s over a half space of the same material is replaced by four layers of 1 m, and with any damping the rock-outcrop transfer function of the re-discretised profile is smaller than the one of the profile at every frequency.
* `C36_early_violated`: C36 fails for every run that converges early: with `verbose=False` the same passes are made first, and then further ones up to `max_iter`, each with its own moduli and damping.
* `C36_verbose_violated`: `verbose` changes the result: the results of the run which prints stem from the initial moduli, those of the silent run from the reduced ones.
* `C37_stops_violated`: With `verbose=False` the loop goes on although a pass changed nothing by more than the tolerance.
* `C39_profile_violated`: The reported profile does not carry the damping of the input.
* `C47_default_violated`: The documented default (`strain_in_pct=None`) never works: TypeError for every soil state.
* `C49_h4_violated`: `get_H4_x_param` gives what `get_HH_x_param` gives; every layer has the nine HH names, hence no layer is an MKZ parameter set.
* `C50_cap_violated`: For every positive cap below the velocity `Vs0` of the topmost layer the profile is built all the same; its first layer exceeds the cap and the velocity decreases below it.
* `C50_low_cap_violated`: For every positive cap below `Vs0 / eta` that some velocity of the formula exceeds, the velocity decreases below the first layer, to `eta` times the cap.
* `C51_large_increment_violated`: For every increment between `c - Vs0` and the maximum velocity `c` an IndexError results.
* `C51_one_metre_violated`: On sediments of at most 2.5 m with the default cap the discretised profile rests on a half space of 1 m/s.
* `C51_shallow_cap_violated`: There a numeric `Vs_cap` is reported as the bedrock velocity while the half space keeps 1000 m/s.
* `C51_shallow_flag_violated`: On sediments of at most 2.5 m and with the default `Vs_cap=True`, `bedrock_Vs` is the Boolean `True`.
* `C51_small_increment_violated`: An increment for which the last soil layer and the half space are both cut off leaves an empty layer, and the request fails: SVM(200, z1=2.65) and an increment of the velocity step from 2.4 m to 2.5 m.
* `C51_uncapped_violated`: Without a bedrock velocity (`Vs_cap=False`) no discretised profile is ever returned.
* `C56_print_violated`: A new object cannot be printed.
* `C57_steps_violated`: Records of the same values but with different time steps: the score is below 0.1 if the time step of the measurement is the larger one, so that 0.1 is not the best value.
* `C58_figures_violated`: **C58 is violated** by parallel runs with `show_fig` and caught errors: whenever the serial run returns a list with a `None` in it, the parallel run raises (an `AttributeError`, unless plotting an earlier result raised).
* `C59_options_violated`: **C59 is violated**: after a serial run that returns, the options hold the directory of the last simulation, so they are changed unless the caller happened to ask for just that directory.
* `C61_cwd_violated`: **C61 is violated**: if the kernel cannot be run, or does not write its first result file, the call raises and leaves the process in the simulation directory, which is not the one before.
* `C62_parent_violated`: **C62 is violated**: a directory that existed before, and was empty, is removed together with the simulation directory that was made in it.
* `C63_linear_violated`: **C63 is violated** by `Linear_Simulation.run(every_layer=False)`: the requested name and directory are ignored, text files go to a directory named after the time.
* `C63_plot_violated`: **C63 is violated** by `plot` with an `output_dir` argument: the second figure goes to the directory of the object; if that does not exist, the call fails.
* `C68_twice_violated`: A curve with a dip, used for two layers or fitted twice: the serial fit refuses the array it has itself changed, the pool does not.
* `C68_unchanged_violated`: Serial fitting of any curve with non-zero small-strain damping changes the caller's array (whatever the fit gives); the pool does not.
* `C69_violated`: A requested number of cores is ignored: the optimisation runs on one core.
* `C70_frequencies_violated`: The frequencies of the result are df, 2 df, … instead of those of the spectrum.
* `C70_nothing_unwrapped_violated`: The spectrum returned by `get_unwrapped_phase(robust=False)` has the values of the original one, and therefore the same phases: nothing is unwrapped.
* `C70_smoothed_violated`: `get_smoothed` never returns without a figure, its default.
* `C70_wrapped_violated`: With either option the phases of the result lie in (-π, π].
* `C71_equiv_noHalf_violated`: Without a half space the equivalent-linear solver never succeeds.
* `C71_noHalf_violated`: A valid profile whose last layer has a positive thickness always makes the solver fail, with ValueError unless the boundary is rigid.
* `C73_isolation_violated`: C73 fails without a half space: after the caller writes 1 into the first thickness of their array, truncating the (separately stored) profile at 5 m gives a total of 14 m.
* `C73_wrong_depth_violated`: C73 is violated by every object built without an added half space: if the caller afterwards changes the first thickness in their array from `t₀` to `t`, truncating at any depth below `t` gives a profile that is `t₀ - t` too deep, although the stored profile is unchanged.
* `C74_to_txt_default_violated`: C74 fails for the default arguments: the default 5-tuple is rejected.
* `C75_save_curve_matrix_violated`: C75 fails: `get_curve_matrix(save_to_file=True, full_file_name=...)` writes no file.
* `C76_file_name_violated`: C76 fails: the file `my_curve_A.txt` yields `HH_x_ve_A.txt`, losing part of the name.
* `C77_mismatch_violated`: C77 is violated by all other mismatches: a length or velocity unit for acceleration, and so on, is accepted.
* `C77_violated`: C77 fails: acceleration in m/s is accepted although the documentation says an exception is raised.
* `C78_offset_violated`: C78 fails for two-column data starting at another time.
* `C78_one_column_all_violated`: C78 is violated by every one-column record: `time` starts at 0, the time column one interval later.
* `C78_one_column_violated`: C78 fails for one-column data: the time column is 1, 2, 3 while `time` is 0, 1, 2.
* `C80_frequency_alignment_violated`: The property fails: for this motion of three samples (`dt = 1`, so `df = 1/3`) and the transfer function 1 at 1/3 Hz and 2 at 2/3 Hz, the component of frequency 1/3 Hz is doubled.
* `C86_complex_table_violated`: C86 fails for a phase that begins with a climb: the values 1, i, 1 are used as -1, i, 1 (the first value changes sign).
* `C86_initial_climb_violated`: C86 fails for every transfer function whose phase rises from the first sample to a peak at `p` and then falls: the sample before the peak is used with the phase -π, that is as `-‖z‖`, whatever it was, and the samples before it with phases on a line that starts at the phase of the last sample of all.
* `C87_density_violated`: Every run on a valid profile with a half space and a motion of at least three samples succeeds, and every reported density is wrong by a factor of 1000.
* `C87_equiv_violated`: The same factor in the results of the equivalent-linear runs.
* `C88_label_violated`: For every uniform damped soil over a half space of the same material the transfer function reported for the frequency `(m + 1) df` is not the one at this frequency, for every `m` above 0: the reported amplification is always greater than the right one.
* `C89_lag_exact_violated`: **When the results belong to the values in force at the end.** For every profile, table of curves, tolerance and number of iterations, and every response which can tell different moduli and damping ratios apart: the reported results are the response for the final moduli and damping ratios if and only if the last pass changed no modulus and no damping ratio at all. A change within the tolerance is enough to break it.
* `C89_lag_violated`: The results are not the response for the moduli in force at the end of the iteration: here the response returns the moduli it was given.
* `C92_beyond_violated`: Beyond the last strain of the table the modulus falls although G/Gmax is 1 throughout the table: the table is continued towards 1e-4 at strain 100.
* `C93_inputs_violated`: The arrays given are changed: entries below the machine epsilon are replaced, and nothing else.
* `C95_defaults_violated`: Without `fmin` or `fmax` the scores d8, d9 and d10 are never computed although both are optional.
* `C96_unfiltered_violated`: C96. Without baseline correction the frequency range is ignored: any two ranges give the same RMS scores.
* `C97_objects_violated`: C97. The objects of the caller hold their scores only after a serial run: for any batch with a score that is new, the objects differ after the two runs.
* `C98_lengths_violated`: C98. Records of different lengths (after the removal of 29 samples) are never scored: the branch which should bring them to one grid exchanges the arguments of the interpolation and keeps a pair.

## 6. Partial theorems and what is missing

* `C07_column_preserved_partial`: C07, the soil column is preserved exactly (total thickness and velocity, damping, density, material at every depth) when each layer's ratio thickness/(Vs/225) is an exact integer or stays away from integers by more than numpy's tolerance 1e-8 + 1e-5·ratio. Missing from the full property: ratios inside the tolerance band, for which it is false (`C07_total_thickness_violated`).
* `C07_sublayers_partial`: C07, what holds for every valid profile. Each layer becomes a non-empty group of sub-layers of the same velocity and properties, none thicker than Vs/225; a zero-thickness half space is kept as it is. The total thickness of a group is at least that of the layer and exceeds it by at most one sub-layer. Missing from the full property: equality of the total thickness (see `C07_total_thickness_violated`; it holds under `C07_column_preserved_partial`).
* `C09_original_partial`: C09 when the truncation depth coincides with a layer bottom: the store (hence the original object) is unchanged apart from newly allocated arrays. Missing from the full property: any other depth, where it is false (`C09_original_violated`).
* `C104_lin_interior_partial`: `lin_smooth` leaves a constant as it is at least half a window away from the ends.
* `C105_values_partial`: The rows of `fourier_transform`: row `k` holds the coefficient of `k` cycles (or its magnitude) and the label `(k + 1) / (N dt)`. The coefficient belongs to the frequency `k / (N dt)`.
* `C106_samples_partial`: Samples from the third on are samples of the high-passed padded record `y`, one step late: the padded record holds sample `i` of the record at position `nz - cl + i`.
* `C108_depth_partial`: The depth of the base profile is within 10 cm of `z1`.
* `C10_caller_array_partial`: C10 for two-column arrays and for SI units: construction leaves every existing array as it was, and constructing again gives an equal profile. Missing from the full property: five columns with `%` or `g/cm^3`, for which it is false (`C10_caller_array_violated`).
* `C110_compliance_partial`: A profile returned with `vs30_z1_compliance=True` is that of the first seed whose profile meets the criteria. Missing: a profile need not exist (`C110_endless_violated`); the second criterion compares the half spaces, not the last soil layers.
* `C113_real_phase_partial`: A spectrum of non-negative real values has zero phase, and amplitude equal to the spectrum.
* `C116_modulus_partial`: With curves, the modulus is that of the profile. Missing from the full property: calibration without curves (`C116_violated`).
* `C117_layers_partial`: One parameter set per soil layer, and a strength profile of that many entries is accepted, for profiles with a half space. Missing from the full property: profiles without half space (`C117_violated`).
* `C118_own_curve_partial`: Each layer is calibrated to its own curve when the material number of row `j` is `j + 1`. Missing from the full property: other material numbers, for which it fails (`C118_violated`).
* `C11_construct_partial`: C11 for two-column data and for five-column data without an added half space: a documented call on a valid array succeeds, and the object holds a valid profile with the input's thicknesses and velocities, correct depth, layer count and Vs30; with `add_halfspace` the last row has zero thickness. Missing from the full property: a five-column array whose last row has positive thickness and material number 0 together with `add_halfspace=True` (`C11_halfspace_material_violated`) and undocumented values of `xi_rho_formula` (`C11_formula_violated`).
* `C11_five_columns_partial`: The rows of an object constructed from five columns: the given rows with damping and density converted; then the half space, which repeats the last row's properties with zero thickness and material number 0.
* `C121_data_partial`: What is fitted is the curve the object shows (in percent), small-strain damping removed, when the data are not interpolated. Missing from the full property: interpolated curves (`C121_violated`).
* `C126_independent_partial`: The new motion is independent of this one if the filter was really applied: saving it in any unit leaves this motion's acceleration alone. Missing: requests which the filter answers with the array passed in, see `C126_shared_violated`.
* `C126_roundtrip_partial`: `deconvolve` undoes `amplify` and `amplify` undoes `deconvolve`: for every valid profile, boundary condition and motion with an odd number of samples at increasing times, both succeed and give back the acceleration sample by sample; no existing array changes. Missing: an even number of samples, where the component at the Nyquist frequency is lost if the transfer function is imaginary there; and other boundary names (`C126_rejects`).
* `C128_interior_partial`: Inside of the spectrum, more than a window width from both ends, the smoothed value is the root of the weighted sum of squares under the window. Missing: the ends, where the folding is wrong (`C128_end_violated`).
* `C129_d89_partial`: Scores 8 and 9 of a multiple, for a measurement with response spectrum and, between `fmin` and `fmax`, smoothed Fourier amplitudes of at least 1e-12. Missing: the frequency at which the smoothed spectrum is always zero (`C129_fourier_violated`).
* `C12_query_thk_partial`: C12 for mid-point queries of a positive-thickness list and for layer-top queries of any list: one velocity per requested layer, that of the profile at the layer's mid-point (top). Missing from the full property: a trailing zero thickness with `at_midpoint=True`, see `C12_halfspace_violated`.
* `C131_f0_partial`: The fundamental frequencies of a valid profile always exist. Both are multiples of 0.05 Hz up to 29.95 Hz, the last of the 599 tabulated frequencies: the first one at which the amplification stops rising, 29.95 Hz if it never does. Missing: a first peak at 29.90 Hz, for which 29.95 Hz is returned (`C31_second_last_violated`), and 30 Hz, which the table does not reach (`C131_top_violated`).
* `C132_matrix_partial`: The matrix of two containers whose curves have positive increasing strains: if the longest curves of both kinds have the same number of points, the matrix is made of the given curves, the shorter ones resampled, and gives curve objects again when the values are valid. Missing: longest curves of different lengths (`C132_lengths_violated`) and curves that contain the strain zero (`C132_zero_strain_violated`).
* `C133_save_load_partial`: Saving a container with at least two layers and reading the file gives the same layers, in order. Missing: containers with one layer (`C133_one_layer_violated`) and the rounding of the numbers in the file.
* `C135_reload_partial`: For at least two curves the file, loaded by the container of the model, gives the parameters returned. Missing: one curve (`C135_one_curve_violated`) and the rounding to six significant digits in the file.
* `C137_fourier_partial`: `get_Fourier_spectrum` of every motion with a time step and enough samples: row `k` holds the coefficient of `k` cycles over the record, and real and complex spectra have the same amplitudes. Missing: the frequency of the row is that of `k + 1` cycles, see `C137_fourier_bins_violated`; two samples, see `C137_fourier_short_violated`.
* `C137_rms_partial`: Every motion given as acceleration: the three values are the root mean squares of its acceleration, velocity and displacement. Missing: motions given as velocity or displacement, see `C137_rms_veloc_violated` and `C137_rms_displ_violated`.
* `C13_history_partial`: C13 for histories without slice deletions, of containers whose element class is the one their class declares: contents, every result and the layer count are those of a typed Python list. Missing from the full property: slice deletions of other than one element (`C13_slice_delete_iff`, `C13_slice_delete_violated`) and base-class containers with a custom element class (`C13_slice_class_violated`).
* `C140_accepted_partial`: A results object is made exactly from two motions and a profile, spectra or `None`, histories of one row per sample of the surface motion and one column per layer boundary (accelerations, velocities, displacements) or per layer (stress, strain), and, if both are given, maxima with one row per boundary or layer; everything is kept as given. Missing: maxima given alone are neither checked nor kept (`C140_maxima_violated`).
* `C141_descending_partial`: The line never goes up if it ends below the top of the last layer, in particular without `max_depth`. Missing: a smaller `max_depth` (`C141_descending_violated`).
* `C142_roundtrip_partial`: C142, partial: thicknesses turned into depths and back: each differs from the original by less than 3/2^53 of the depth of the bottom of its layer. Missing: that the thicknesses come back unchanged; they do not (`C142_roundtrip_violated`).
* `C143_decimal_partial`: C143, partial: for a step `d` and limits `a d < b d` written as decimal numbers, each of them rounded to a double, each index is the number of steps or one less. Missing: that it is the number of steps; it is not (`C143_violated`).
* `C143_exact_partial`: C143, partial: when the numbers are doubles and the limits are exactly `a` and `b` steps, the samples from `a` to `b` are returned. Missing: limits that are whole multiples of the step as decimal numbers (`C143_decimal_partial`, `C143_violated`).
* `C144_decimal_partial`: C144, partial: for a total depth that is `k` times the thickness as a decimal number, the number of layers is `k` or `k + 1`. Missing: that it is `k`; it is not (`C144_violated`).
* `C144_exact_partial`: C144, partial: a total depth of exactly `k` layers (as doubles) gives `k` layers. Missing: total depths that are `k` layers as decimal numbers or after summation in doubles (`C144_decimal_partial`, `C144_violated`).
* `C145_decimal_partial`: C145, partial: for a maximum frequency that is `k` times the resolution as a decimal number, there are `k` or `k - 1` frequencies. Missing: that there are `k`; there are not (`C145_default_violated`).
* `C145_exact_partial`: C145, partial: when the maximum frequency is exactly `k` times the resolution (as doubles), there are `k` frequencies and the last is the maximum. Missing: decimal numbers (`C145_decimal_partial`, `C145_default_violated`).
* `C146_target_partial`: C146, partial: for peaks and targets of ordinary size the peak of the scaled motion, in g, is the target up to five units of 2^-53. Missing: equality, which fails (`C146_violated`).
* `C148_grid_partial`: C148, partial: the depths of the smooth profile, in doubles, are strictly increasing from 0 and none is below `z1 - thk_addl_layer` (rounded). Missing: that all are strictly above it (`C148_violated`).
* `C149_roundtrip_partial`: C149, partial: an acceleration of ordinary size in cm/s/s, read (divided by 100) and saved again in cm/s/s (multiplied by 100), changes by at most 3/2^53 of itself, and keeps its sign. Missing: that it is unchanged; it is not (`C149_violated`).
* `C14_history_exact_partial`: C14 for whole histories, exactly: if every operation is one of those, taken at the state it is applied to, the container stays right.
* `C14_history_partial`: C14 for the two subclasses and histories without slice deletion, slice assignment or assignment of a wrongly typed element. Missing from the full property: those three (`C14_set_violated`, `C14_slice_delete_violated`, `C14_slice_assign_violated`) and slices of base-class containers (`C14_base_slice_violated`).
* `C150_error_partial`: C150, partial: as long as nothing underflows, the interpolated value differs from the exact one on the line between the two points by at most 9/2^53 of `|y0| + |y1 - y0|`; so a curve leaves the range of its values by no more than that. Missing: that it stays inside the range (`C150_below_zero_violated`).
* `C150_one_side_partial`: C150, partial: interpolating a curve whose values never increase (such as G/Gmax) never gives more than the greatest value; interpolating one whose values never decrease (such as damping) never gives less than the least value. Missing: the other bound (`C150_below_zero_violated`).
* `C151_retry_partial`: C151, partial: the search for the mean thickness ends exactly if the solver succeeds at the first call, whose result is then used. Missing: that it always ends (`C151_retry_violated`).
* `C152_sigma_partial`: C152, partial: the standard deviation of Shi & Asimaki (2018) lies between 0.08 and 0.43 for velocities up to 1500 m/s. Missing: faster velocities (`C152_negative_violated`).
* `C153_identify_partial`: C153, partial: two MKZ curves that agree at two strains agree everywhere: they have the same `s` and the same `beta / gamma_ref^s`. Missing: the same `gamma_ref` and `beta` (`C153_identify_violated`).
* `C154_motion_partial`: C154 for motions, what the object holds: from a two-column integer array the constructor keeps the times and stores the SI values without their fractional parts (SI units: the given numbers). Missing from the full property: the fractional parts, whose loss is silent (`C154_motion_iff`, `C154_zero_motion_violated`).
* `C154_save_partial`: Saving an integer-valued motion: in m/s/s and in gal the file has the exact values, in g the values without their fractional parts, and the object keeps these. Missing: the fractional parts in g (`C154_save_violated`).
* `C154_stress_partial`: Vertical stress for integer thicknesses: whole Pascals, at most the exact stress, which exceeds it by less than `i + 1` Pa in layer `i` (counted from 0). Missing from the full property: equality (`C154_stress_violated`).
* `C155_drawn_partial`: What is drawn: three axes in the figure (the one passed in, or a new one) with the record, its integral and its second integral over its times, the peak marked at its own time and amplitude, its magnitude in the annotation, and the units of the labels; all other axes are left alone. Missing: records whose peak is close to the end (`C155_near_end_violated`).
* `C157_curve_partial`: A single curve is drawn with exactly the keyword arguments given.
* `C158_motion_partial`: C158 for motions of two or more samples: an unknown unit or type, or a unit that is not one of the type, raises ValueError, as documented; the only other failure is a division by zero for a velocity or displacement record with repeated times (the code goes on with infinite numbers). Missing: shorter records (`C158_motion_short_violated`).
* `C158_profile_arg_partial`: A profile argument: anything that is not an array raises TypeError, every other invalid argument with at least one row raises ValueError, as documented.
* `C158_results_partial`: The results object raises TypeError or AssertionError only.
* `C158_truncate_partial`: Truncation of motions: ValueError exactly for a negative extension or limits that are not increasing; ZeroDivisionError, which is not documented, for a motion without time step.
* `C159_transfer_partial`: With a transfer function the amplification, the line at 1, and the phase are drawn at its frequencies; a smoothed transfer function with the same frequencies is drawn beside it.
* `C15_history_partial`: C15 for every history without the in-place merge operator `|=`: the object keeps exactly its allowable keys. Missing from the full property: `|=`, which bypasses the check (`C15_ior_violated`).
* `C161_parallel_partial`: Parallel fits: panel `i` shows curve `i` as it was given, and the damping of the parameters returned for layer `i` above the small-strain damping of this curve. Missing: serial fits (`C161_serial_violated`) and curves with a dip.
* `C166_label_partial`: The labels of grid points: the velocity and the basin depth as they are; the peak acceleration as it is for all tabulated values but 1.25 g.
* `C168_motion_partial`: A motion from a file without header lines is the motion of the array of its two columns.
* `C171_figure_partial`: **C171**, what the figure of `truncate` shows, for a motion that was given as accelerations. Each panel has the history of the original motion and that of the new one, the latter at the place that the kept samples have on the time axis. There the two accelerations coincide; the two velocities differ by the original velocity just before the cut, and the displacements by the original displacement just before the cut and the distance covered at that velocity. Missing: windows that end before time 0 (`n2 < 0`, see `C24_before_start_violated`), motions given as velocities or displacements, and the times of records that do not start at 0 (`C171_times_violated`).
* `C172_layer_partial`: **C172**, the figure of one layer. It belongs to the returned parameters: the lines FKZ and HH of the upper panel are the stresses in kPa of the FKZ and HH models with the parameters in the returned column, the horizontal line is their shear strength in kPa, both vertical lines are at their transition strain in percent, the titles give their numbers, and the line HH of the lower panel is the secant modulus of HH over `Gmax`. The column is the one returned without a figure. Missing: the first point of the line of the given curve (`C172_first_point_violated`) and the line of FKZ in the lower panel (`C172_fkz_exact`).
* `C172_mkz_line_partial`: C172, curves that are not given (Darendeli's): from the second point on the line labelled "MKZ" is the MKZ model with the parameters in the returned column.
* `C174_intensity_partial`: C174. The figure of scores 1 to 4 has four panels: the normalised Arias intensities, the normalised energy integrals, the Arias intensities and the energy integrals of measurement and simulation (after baseline correction and filter), with the two scores' digits in the titles; the numbers drawn are those that are scored, which differ from the normalised curves below the machine epsilon only. Missing: the simulation is drawn at the times of the measurement (`C174_times_violated`).
* `C174_rms_partial`: C174. The figure of scores 5 to 7 has three panels: acceleration, velocity and displacement of both records, each at its own times and within the axes, with the digits of the scores in the title; the larger velocity and the larger displacement are drawn first, so that the other one is not hidden, and without baseline correction the larger acceleration too. Missing: with baseline correction the accelerations drawn are the corrected ones, while the score and the order of the lines are those of the records before the correction.
* `C174_spectra_partial`: C174. The figure of scores 8 and 9 belongs to the same two scores and shows the spectra they are computed from (of the records after two baseline corrections, if asked for), with the area under the larger of the two lines shaded exactly over the scored periods (1/fmax to 1/fmin) and frequencies (fmin to fmax). The abscissae of the spectra must not decrease, and those of the two Fourier spectra must agree. Missing: inside the scored range amplitudes below 2^-52 are drawn as 2^-52, and the vertical extent of the axes.
* `C175_damping_partial`: C175: with damping given as a ratio, the warning about the damping is printed if and only if some damping of the stored profile is above 1 (100%). Missing: damping given in percent.
* `C180_kept_partial`: C180: the result files that a linear simulation has saved under its default names are still there, with their contents, after another simulation that saves its results at another second. Missing: two simulations within one second (`C180_overwritten_violated`).
* `C181_accuracy_partial`: C181, partial: in double precision, VsZ (with the last layer continuing downwards) is the depth divided by the travel time, up to a relative error of 60·(layers + 1)·2^-53, times the largest velocity divided by the smallest, times the thickness of the profile divided by `Z` (if that is more than 1). Layers may have thickness 0. Missing: that the computed number is the nearest double; it is not (`C181_homogeneous_violated`).
* `C181_between_partial`: C181, partial: up to the same relative error, VsZ lies between the smallest and the largest velocity. Missing: exactly between them; `C181_homogeneous_violated` is a profile for which it does not.
* `C182_query_partial`: C182, partial: at a depth that is farther from every interface than the rounding errors (2^-52 of the depth of the interface per layer), the velocity is that of the layer which contains the depth. Missing: depths at an interface and next to it, for which the neighbouring layer may be returned (`C182_interface_violated`).
* `C183_roundtrip_partial`: C183, partial: differentiating the velocity in doubles: each acceleration times the computed difference of its times is the original one times the time step, up to 25·2^-53 of the sum of the absolute accelerations so far times the time step (and terms of underflow). Missing: that the accelerations come back unchanged; they do not (`C183_roundtrip_violated`), not even nearly if they are small next to earlier ones (`C183_absorbed_violated`).
* `C185_differentiation_partial`: C185, differentiation: the accelerations from samples of a velocity with the derivative `f` differ from `f` by at most `L dt`, from the second sample on. Missing: the first sample, see `C185_first_acceleration_violated`.
* `C187_outcrop_partial`: C187: `get_f0_RO` of such a deposit, on rock of the same damping ratio and a larger impedance, is `Vs / (4 H)` to within 0.05 Hz, a term of second order in the damping ratio and one in its product with the impedance ratio. Missing: the amplification has to rise from the first to the second tabulated frequency; where the damping is large enough against the step of the table it does not, and 0.05 Hz is returned (`C187_outcrop_violated`). Also missing: rock of another damping ratio.
* `C189_spectrum_partial`: C189: row `k` of the Fourier spectrum of `n` samples, multiplied by the time step, is the Fourier integral of the motion over the record at the frequency `k / (n dt)`, up to a multiple of the time step. Missing: `fourier_transform` does not multiply by the time step (`C189_scale_violated`), and writes `(k + 1) / (n dt)` for the frequency (C105).
* `C18_caller_array_partial`: C18 when no unit conversion is requested, or the data are interpolated (then the curve owns its arrays): whether or not construction succeeds, every array keeps its contents. Missing from the full property: conversions without interpolation, for which it is false (`C18_curve_violated`, `C18_rejected_curve_violated`).
* `C191_amplification_partial`: C191: at every frequency the amplification relative to rock outcrop is at most the amplification relative to the motion within the ground, times `√(1 + ξ²)`, `ξ` being the damping of the base. Missing: the inequality without the factor, which fails for a base with damping (`C191_amplification_violated`).
* `C193_delay_spectra_partial`: C193, response spectra: silence before a motion that starts from zero does not change its response spectra. Missing: motions whose first sample is not zero (`C193_spectra_violated`).
* `C193_extend_arias_partial`: C193, what holds of the Arias intensity: silence after a motion that has ended (last sample zero) changes neither the intensity nor the significant duration. Missing: motions whose last sample is not zero (`C193_extend_violated`).
* `C196_long_peaks_partial`: C196, long periods: spectral velocity and displacement are the peak ground velocity and displacement of `num_int`, up to terms that vanish with the frequency and up to a multiple of the time step. Missing: the terms with the time step do not vanish at long periods (`C196_long_violated`).
* `C196_pga_partial`: C196: hence at short periods spectral acceleration tends to the peak ground acceleration, provided that the first sample does not exceed all others. Missing: records whose first sample is the largest.
* `C202_sign_partial`: C202. Exchanging the two values reverses the sign of the score; a score of 0 stays 0. Missing for the full property: the same magnitude, see `C202_magnitude_violated`.
* `C203_state_partial`: C203. Up to 15 times the reference strain, damping does not increase with stress, lateral stress and overconsolidation. Missing: larger strains.
* `C203_strain_partial`: C203. Damping does not decrease with strain up to 15 times the reference strain. Missing: larger strains, see `C203_strain_violated`.
* `C206_monotone_partial`: The HH stress does not decrease along increasing strains as long as the MKZ stress is not above the FKZ stress at the strains passed. Missing: strains at which the MKZ stress is above the FKZ stress, where the transition goes downwards; `C206_violated` shows that the claim is false there.
* `C206_strength_partial`: The HH stress is not above the strength at strains where the MKZ stress is not. Missing: strains at which the MKZ stress is above the strength.
* `C20_caller_array_partial`: Construction from SI units or from one-column data leaves memory unchanged, whether it succeeds or not. Missing: two-column data in other units (`C20_violated`).
* `C210_seeds_partial`: C210, what holds: every seed from 0 up to 2³¹ gives a profile of depth `z1`. Missing: other numbers (`C210_range_violated`), and a new profile for each call without seed (`C210_clock_violated`).
* `C211_d1234_partial`: C211, intensities (scores 1-4): the scores of the shapes of the intensity curves do not change when both motions are multiplied by the same factor; those of the final values do not change if the values are above the absolute thresholds 1e-12 and 2.2e-16 of the score.
* `C211_d567_partial`: C211, root mean squares (scores 5-7): no change if the values are above the thresholds.
* `C211_d89_partial`: C211, spectra (scores 8 and 9): no change if the values are above the thresholds.
* `C212_profile_partial`: C212 for the layers of a profile: of two layers with the same velocity, and more generally of two soft or two stiff layers of which the lower one is not softer, the lower one has the greater strength.
* `C212_stiffness_partial`: C212, among the soft layers (at most 760 m/s) and among the stiff ones, the stiffer one has the greater strength at the same stress. Missing: a soft and a stiff one (`C212_jump_violated`).
* `C213_mkz_partial`: C213, partial: `MKZ_Param.get_damping` for strains on a logarithmic grid (such as the default strains) returns damping ratios which do not decrease with strain. Missing: other grids (`C213_sparse_violated`).
* `C218_baseline_partial`: C218, baseline correction: a motion none of whose samples is equal to the mean of the first five has, in the opposite direction, the opposite corrected motion. Missing: motions with such samples, in particular those that begin at rest, for which the property does not hold (`C218_baseline_violated`).
* `C219_both_partial`: C219, the part that holds: with both motions in the opposite direction all scores are the same. Missing: the scores do not recognise that only one of the motions is in the opposite direction (`C219_violated`), and baseline correction depends on the direction (`C218_baseline_violated`).
* `C21_unchanged_partial`: Saving in SI units changes neither object nor memory. Missing: other units (`C21_violated`).
* `C23_bounds_partial`: For thresholds inside the range of the normalised series, the returned times are those of the first samples reaching the thresholds; they are ordered and lie in the record. Missing from the full property: a low threshold ≤ the first value, see `C23_low_zero_violated`.
* `C24_truncate_partial`: Truncation in time. The new motion's samples are those of the original whose interval ends inside the window extended by `ext`, clipped to the record; it starts again at the original's first time. The returned pair is the index range. The original is unchanged. Missing: windows ending before time 0 (`C24_before_start_violated`), and truncation by Arias intensity for records not starting at 0 (`C24_arias_offset_violated`).
* `C27_uneven_partial`: Time intervals exceeding the first one by the tolerance or more are rejected, and exactly those. Missing: intervals that are shorter than the first (`C27_violated`).
* `C31_first_peak_partial`: The first peak is found if it lies before the second-last point. Missing: a first peak at the second-last point (`C31_violated`).
* `C32_repair_partial`: The repair step, for signals that do not begin with a climb: samples strictly inside of a complete multi-sample climb are replaced by the line from the trough value towards `-π`, all others are kept. Missing: signals beginning with a climb (`C32_violated`).
* `C34_stratify_partial`: C34: the discretisation done by `stratify` before the every-layer solver runs does not change the transfer functions of a profile ending in a zero-thickness half space, when each layer's ratio thickness/(Vs/225) is an integer or outside numpy's tolerance band around integers. Missing from the full property: ratios inside the band, where `stratify` changes the column itself (C07).
* `C36_verbose_partial`: If the run with `verbose=True` does not stop early, `verbose=False` gives the same outcome; and if it fails, so does the other, with the same exception. Missing for the full property: the same for runs which converge early, see `C36_verbose_violated`.
* `C37_quiet_partial`: With `verbose=False` the loop always makes exactly `max_iter` passes.
* `C37_stops_partial`: With `verbose=True` the loop makes at least one and at most `max_iter` passes; no pass but the last one changed all moduli and damping ratios by less than `tol`; and if fewer than `max_iter` passes were made, the last one did. Missing for the full property: the same with `verbose=False`, see `C37_stops_violated`.
* `C39_profile_partial`: Thickness, velocity, density and material of all layers, and the last row altogether, are those of the (re-discretised) input profile; the damping of the other layers is the one of the last pass. Missing for the full property: unchanged damping, see `C39_profile_violated`.
* `C47_curves_partial`: For given strains the result has one `G/Gmax` column and one damping column per layer, one value per strain, and the reference strains in units of 1.
* `C50_capped_partial`: With a cap `c` of at least `Vs0 / eta`, or one which no velocity of the formula exceeds: the base profile exists, is valid, its velocities do not decrease with depth and do not exceed `c`; it starts with 2.4 m of velocity `Vs0`, continues with layers of 10 cm and ends with a half space of velocity `c`. The velocities of the formula are kept wherever they do not exceed `eta · c`, and everywhere if none exceeds `c`. Missing: other caps below `Vs0 / eta`, see `C50_low_cap_violated`.
* `C51_bedrock_partial`: On sediments deeper than 2.5 m `bedrock_Vs` is the number given (1000 for `True`) and the velocity of the half space. Missing: shallower sediments, see the theorems below.
* `C51_fixed_partial`: With a numeric bedrock velocity and a positive layer thickness `t` a discretised profile is returned: of depth `z1`, over a half space with the bedrock velocity; layer `i` has the velocity of the base profile at its middle (its top for `at_midpoint=False`). Missing: `Vs_cap=False` (`C51_uncapped_violated`), sediments of at most 2.5 m (`C51_one_metre_violated`).
* `C51_increment_partial`: With a velocity increment that yields layers, the last of which is not empty (or `at_midpoint=False`), a profile of depth `z1` over the bedrock is returned, with velocities of the base profile.
* `C57_least_partial`: C57. For equal time steps the cross-correlation score is at least 0.1. The part missing: different time steps, see `C57_steps_violated`.
* `C58_figures_partial`: **C58** (with figures): if no simulation failed and plotting works, `show_fig` changes nothing.
* `C58_parallel_partial`: **C58** (schedules): without `show_fig`, a parallel run under any chunking and any order in which the chunks finish gives what the serial run gives; if simulations raise, it raises the error of one of them.
* `C59_options_partial`: **C59** (partial): a parallel run leaves the options as they were, under any schedule; a serial run leaves every entry but the directory as it was.
* `C61_returned_partial`: **C61** (partial): if the run returns, the working directory is the one before. Missing: runs that raise, see `C61_cwd_violated`.
* `C62_outside_partial`: **C62** (partial): whether the run returns or raises, at any point: every entry of the file system outside of the simulation directory is still there, except that the run may remove directories on the way to it, and nothing is added outside of it but directories leading to it. Missing: that these directories stay, see `C62_parent_violated`.
* `C63_plot_partial`: **C63** (figures, partial): without an `output_dir` argument `plot` changes nothing outside of the directory of the object, and if it returns both figures are there.
* `C63_runs_partial`: **C63** (runs): the every-layer and the equivalent-linear run make an object with the requested directory and name, and write nothing outside of the directory.
* `C68_same_partial`: For curves whose damping is least at the first strain: serial and parallel fits succeed together, whatever the schedule, with the same parameters, namely those of the lowered curves in the order of the layers; this holds even if an array occurs several times. Missing from the full property: curves with a dip, and that the curves are left unchanged (`C68_unchanged_violated`, `C68_twice_violated`).
* `C68_unchanged_partial`: The curves are left unchanged when they start at zero damping, or when the fit is done by a pool. Missing from the full property: serial fits of other curves (`C68_unchanged_violated`).
* `C69_workers_partial`: No parallelism: one worker. Parallel without a number: all cores (-1 for scipy). Missing from the full property: a given number of cores (`C69_violated`).
* `C70_smoothed_partial`: With a figure, the smoothed real spectrum has as many samples as the spectrum and stays in its range.
* `C71_equivRun_partial`: C71. `Equiv_Linear_Simulation.run` with its default settings gets to the packaging of results which fit the re-discretised profile and the motion. The part missing: the construction of the result objects, which fails for instance if a damping curve falls below zero.
* `C71_equiv_partial`: For every valid profile with a half space, curves for all its materials, at least one iteration and every motion, of even or odd length, the equivalent-linear solver succeeds and its results fit the re-discretised profile and the motion.
* `C71_linear_partial`: For every valid profile with a half space and every motion, of even or odd length, the linear every-layer solver succeeds and its results fit the re-discretised profile and the motion; the shape checks of `Simulation_Results` accept them. (A rigid boundary needs at least two rows.) Missing for the full property: profiles without half space, see `C71_noHalf_violated`.
* `C73_isolation_partial`: C73 when a half space was added: the object refers only to its own arrays, so later writes to the caller's array have no effect on truncation depths. Missing from the full property: objects built without an added half space, whose cached thicknesses are a view of the caller's array (`C73_isolation_violated`).
* `C73_later_writes_partial`: C73 when a half space was added: whatever the caller writes into their array afterwards, truncating gives the same object and the same profile. Missing from the full property: objects built without an added half space (`C73_wrong_depth_violated`).
* `C74_to_txt_partial`: C74 for an explicit list: `to_txt` accepts exactly lists of five specifiers. Missing: the documented default, which is a tuple (`C74_to_txt_default_violated`).
* `C76_file_name_partial`: C76 for files whose stem starts with `curve_` or does not contain it: the prefix, and nothing else, is removed. Missing: `curve_` elsewhere in the name (`C76_file_name_violated`).
* `C77_unit_check_partial`: Unknown units, unknown motion types, and g or gal for anything but acceleration are rejected with ValueError. Missing: other mismatches are accepted (`C77_violated`).
* `C78_time_partial`: The attribute `time` equals the time column of the given data when that column is uniform and starts at 0. Missing: other records (`C78_offset_violated`, `C78_one_column_violated`).
* `C80_frequency_alignment_partial`: The factor applied at each Fourier component of the motion, when the table covers the frequency range (`extrap_tf=False` and no down-sampling needed): component `m`, whose frequency is `m·df` with `df = 1 / (dt·n)`, is multiplied by the transfer function at `(m+1)·df`. The property asks for the value at `m·df`; see the witness below.
* `C86_complex_table_partial`: A complex transfer function is used through its amplitude and unwrapped phase; together they give back every complex value that does not lie strictly inside a multi-sample climb of the phase, for phases that do not begin with a climb. Missing: the other values (`C86_complex_table_violated`, `C86_initial_climb_violated`).
* `C87_profile_partial`: The reported profile has the thicknesses, velocities, damping ratios and materials of the re-discretised input. Missing for the full property: the densities, see `C87_density_violated`.
* `C88_tf_partial`: What the reported transfer function is: with `df = 1 / (N dt)` (`N` the length of the padded motion) the value reported for the frequency `(m + 1) df` is the transfer function of the re-discretised profile (rock outcrop for the elastic boundary, borehole for the rigid one) at the frequency `(m + 1/15) df`, or the real part of it for `m = 0`. Missing for the full property: the transfer function at the frequency reported, see `C88_label_violated`.
* `C89_lag_partial`: C89. What the equivalent-linear solver returns: motions and strains are the response for moduli `G` and dampings `D`; stresses follow from these strains with other moduli `G'` and the dampings of the returned profile, which are obtained from the curves at the effective strains of the response. The part missing: `G = G'` and `D` = damping of the returned profile, see `C89_lag_violated`.
* `C92_flat_partial`: C92. If the curves of every layer are flat and reach its effective strain in the linear analysis, the equivalent-linear solver gives exactly the results of the linear one, whatever tolerance, iteration limit and verbosity. The part missing: tables ending below the effective strain, see `C92_beyond_violated`.
* `C93_elements_partial`: C93. The scores of arrays of the same length are the scores of their elements.
* `C96_filtered_partial`: C96. With baseline correction the RMS scores depend on the records only through what passes the filter of the frequency range. The part missing: calls without baseline correction, see `C96_unfiltered_violated`.

## 7. Which functions are modelled

A function counts as modelled if at least half of its lines are cited by a definition; the rest is not modelled, or only in part (percentage in brackets).

| File | Modelled | In part or not at all |
|---|---|---|
| class_Vs_profile.py | \_\_init\_\_, \_\_repr\_\_, plot, get_ampl_function, get_transfer_function, get_f0_RO, get_f0_BH, get_depth_array, truncate, query_Vs_at_depth, query_Vs_given_thk, _plot_queried_Vs, get_slowness, output_as_km_unit, to_txt | get_basin_depth, get_z1, summary |
| class_batch_simulation.py | \_\_init\_\_, run, _run_single_sim |  |
| class_curves.py | \_\_init\_\_, plot, \_\_init\_\_, get_HH_x_param, get_H4_x_param, \_\_init\_\_, \_\_init\_\_, \_\_contains\_\_, \_\_len\_\_, \_\_setitem\_\_, \_\_getitem\_\_, \_\_delitem\_\_, append, plot, plot, get_curve_matrix, get_all_HH_x_params, get_all_H4_x_params, _produce_output_file_name, plot, get_curve_matrix, \_\_init\_\_, get_MGC_MDC_objects, get_curve_matrix | \_\_repr\_\_, \_\_init\_\_ (37 %), \_\_repr\_\_, \_\_init\_\_ (44 %), \_\_init\_\_ (44 %), plot |
| class_damping_calibration.py | get_damping_curves, get_HH_x_param, get_H4_x_param | \_\_init\_\_ |
| class_frequency_spectrum.py | \_\_init\_\_, \_\_repr\_\_, plot, get_smoothed, get_f0, get_unwrapped_phase |  |
| class_gof_scores.py | \_\_init\_\_, \_\_str\_\_, calc_scores, \_\_init\_\_, run, _run_single_score | get_meas, get_simu, get_scores |
| class_ground_motion.py | \_\_init\_\_, \_\_repr\_\_, get_Fourier_spectrum, get_response_spectra, plot, _unit_convert, \_\_calc_RMS, \_\_arias_time_bounds, \_\_calc_Arias, scale_motion, truncate, amplify_by_tf, amplify, compare, deconvolve, baseline_correct, lowpass, highpass, bandpass, bandstop, save_accel | summary |
| class_hh_calibration.py | \_\_init\_\_, fit |  |
| class_parameters.py | \_\_init\_\_, \_\_repr\_\_, \_\_setitem\_\_, \_\_delitem\_\_, serialize, get_stress, get_GGmax, get_damping, plot_curves, \_\_init\_\_, serialize, serialize, \_\_init\_\_, \_\_contains\_\_, \_\_len\_\_, \_\_setitem\_\_, \_\_getitem\_\_, \_\_delitem\_\_, construct_curves, serialize_to_2D_array, save_txt, \_\_init\_\_, \_\_init\_\_ | \_\_init\_\_ (16 %) |
| class_simulation.py | \_\_init\_\_, run, \_\_init\_\_, run, \_\_init\_\_, run |  |
| class_simulation_results.py | \_\_init\_\_, plot, to_txt |  |
| class_site_effect_adjustment.py | \_\_init\_\_, run |  |
| class_site_factors.py | \_\_init\_\_, get_amplification, get_phase_shift, get_both_amplf_and_phase, _get_results, _query, _locate_grids, _find_neighbors, _search_sorted, _interpolate, _plot_interp, _range_check |  |
| class_svm.py | \_\_init\_\_, plot, get_discretized_profile, _plot_additional_profile, get_randomized_profile, _helper_get_rand_profile, _thk_depth_func, _find_index_closest | \_\_repr\_\_ |
| helper_generic.py | get_current_time, find_closest_index, _process_fig_ax_objects, read_two_column_stuff, assert_1D_numpy_array, assert_array_length, extend_scalar, check_length_or_extend_to_array, assert_2D_numpy_array, check_two_column_format, check_Vs_profile_format, is_int, check_numbers_valid, interpolate, mean_absolute_error, extract_from_curve_format, extract_from_param_format, merge_curve_matrices | detect_OS |
| helper_gof_scores.py | S_, d_1234, calc_AriasIntensity, d_567, baseline_wavelet, calc_rms, getAbsPeak, d_89, d_10, upArrow_op, period_list, circular_convolve_mra, circular_convolve_d, modwt, modwtmra |  |
| helper_hh_calibration.py | hh_param_from_profile, hh_param_from_curves, produce_HH_G_param, _calc_shear_strength, _calc_Gmax, _calc_OCR, _calc_vertical_stress, _calc_rho, _calc_PI, _calc_K0, produce_Darendeli_curves, _calc_mean_confining_stress, _optimization_kernel, \_\_find_x_t_and_d, \_\_calc_area |  |
| helper_hh_model.py | tau_FKZ, transition_function, tau_HH, fit_HH_x_single_layer, _damping_misfit, serialize_params_to_array, deserialize_array_to_params |  |
| helper_mkz_model.py | tau_MKZ, fit_H4_x_single_layer, damping_misfit, serialize_params_to_array, deserialize_array_to_params, fit_MKZ, func |  |
| helper_signal_processing.py | lowpass, highpass, bandpass, bandstop, _filter_kernel, baseline, _remove_linear_trend, fourier_transform, taper_Tukey, calc_transfer_function, log_smooth, lin_smooth, sine_smooth |  |
| helper_simulations.py | check_layer_count, linear, equiv_linear, _prepare_inputs, _lin_resp_every_layer, _calc_stress, _post_processing |  |
| helper_site_response.py | calc_z1_from_Vs30, stratify, query_Vs_at_depth, query_Vs_given_thk, plot_motion, num_int, num_diff, find_f0, response_spectra, _time_stepping, get_xi_rho, calc_VsZ, calc_Vs30, calc_basin_depth, calc_z1, _gen_profile_plot_array, thk2dep, dep2thk, linear_tf, amplify_motion, linear_site_resp, _plot_site_amp, compare_two_accel, _align_two_time_arrays, _get_freq_interval, robust_unwrap, calc_damping_from_param, calc_damping_from_stress_strain, calc_GGmax_from_stress_strain, _plot_damping_curve_fit, fit_all_damping_curves, _fit_single_layer_loop, ga_optimization, loss_function\_\_, uniform | plot_Vs_profile (32 %) |
