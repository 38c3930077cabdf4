{"id": "C01", "title": "Thickness/depth conversions are mutually inverse", "statement": "Converting layer thicknesses to layer-top depths and back returns the same thicknesses with the last one replaced by 0 (half space), and converting any depth array that starts at 0 to thicknesses and back returns the same depths; a depth array not starting at 0 is rejected with ValueError and an empty array with an error.", "quantifier": "every finite list of thicknesses, every finite list of depths", "why_tests_cant": "round trip over lists of unbounded length and arbitrary values", "anchors": ["PySeismoSoil/helper_site_response.py:thk2dep", "PySeismoSoil/helper_site_response.py:dep2thk"]}
{"id": "C02", "title": "A depth query returns the Vs of the layer containing that depth", "statement": "query_Vs_at_depth returns, for each queried depth, the Vs of the unique layer whose top is at or above the depth and whose bottom is strictly below it (at an interface: the layer below), and the last Vs for depths below the profile; negative depths raise ValueError.", "quantifier": "every valid Vs profile and every list of query depths", "why_tests_cant": "unbounded number of layers and a continuum of depths including exact interfaces", "anchors": ["PySeismoSoil/helper_site_response.py:query_Vs_at_depth", "PySeismoSoil/class_Vs_profile.py:Vs_Profile.query_Vs_at_depth"]}
{"id": "C03", "title": "VsZ is the time-averaged velocity of the top Z metres", "statement": "calc_VsZ / calc_Vs30 (option 1) return Z divided by the vertical shear-wave travel time through the top Z metres, the last layer being continued downwards when the profile is shallower; option 2 uses the profile depth instead of Z when the profile is shallower.", "quantifier": "every valid profile, every Z > 0, both options", "why_tests_cant": "equality with an integral over depth for every layering", "anchors": ["PySeismoSoil/helper_site_response.py:calc_VsZ", "PySeismoSoil/helper_site_response.py:calc_Vs30"]}
{"id": "C04", "title": "VsZ lies between the slowest and the fastest layer", "statement": "For every valid profile VsZ is at least the smallest and at most the largest layer Vs; a uniform profile has VsZ equal to its Vs.", "quantifier": "every valid profile, every Z > 0", "why_tests_cant": "inequality over arbitrary layerings", "anchors": ["PySeismoSoil/helper_site_response.py:calc_VsZ"]}
{"id": "C05", "title": "VsZ does not depend on how homogeneous layers are subdivided", "statement": "Replacing a layer by two layers of the same Vs whose thicknesses add up does not change VsZ / Vs30.", "quantifier": "every valid profile, every layer, every split point, every Z", "why_tests_cant": "metamorphic relation over all splits", "anchors": ["PySeismoSoil/helper_site_response.py:calc_VsZ"]}
{"id": "C06", "title": "Basin depth is the shallowest depth at which Vs reaches the threshold", "statement": "get_basin_depth(bedrock_Vs) returns the top depth of the first layer with Vs at or above the threshold and the full thickness when no layer qualifies; every layer above has a smaller Vs; the value never decreases when the threshold is raised and z1 is the value for 1000 m/s.", "quantifier": "every valid profile, every threshold", "why_tests_cant": "first-match characterisation and monotonicity over all profiles and thresholds", "anchors": ["PySeismoSoil/helper_site_response.py:calc_basin_depth", "PySeismoSoil/helper_site_response.py:calc_z1", "PySeismoSoil/class_Vs_profile.py:Vs_Profile.get_basin_depth"]}
{"id": "C07", "title": "Re-discretisation (stratify) preserves the soil column", "statement": "stratify keeps the total thickness and the material at every depth, keeps the half-space row, and produces sub-layers no thicker than Vs/225.", "quantifier": "every valid profile", "why_tests_cant": "fails only on a thin band of thickness/Vs ratios near integers that sampled tests miss", "anchors": ["PySeismoSoil/helper_site_response.py:stratify"]}
{"id": "C08", "title": "Truncating a profile at a depth keeps everything above that depth", "statement": "Vs_Profile.truncate(depth, Vs) yields a profile of total thickness exactly depth over a half space with the given Vs, whose velocity at every shallower depth equals that of the original (the last layer continued downwards when depth exceeds the profile); non-positive depth or Vs raise ValueError.", "quantifier": "every valid profile, every depth > 0, every Vs > 0", "why_tests_cant": "unbounded layers and a continuum of truncation depths", "anchors": ["PySeismoSoil/class_Vs_profile.py:Vs_Profile.truncate"]}
{"id": "C09", "title": "truncate leaves the original profile object unchanged", "statement": "After prof.truncate(...) the profile object prof still holds its original layer thicknesses, so a second truncate at any other depth gives the same result as on a fresh object.", "quantifier": "every profile and every sequence of truncate calls", "why_tests_cant": "aliasing effect visible only over call histories", "anchors": ["PySeismoSoil/class_Vs_profile.py:Vs_Profile.truncate"]}
{"id": "C10", "title": "Constructing a Vs_Profile does not modify the array passed in", "statement": "Vs_Profile(array, ...) leaves the caller's array unchanged for every combination of damping and density units, hence constructing two profiles from the same array yields equal profiles.", "quantifier": "every array and every unit combination, every number of constructions", "why_tests_cant": "hidden mutation through aliasing, over histories of constructions", "anchors": ["PySeismoSoil/class_Vs_profile.py:Vs_Profile.__init__"]}
{"id": "C11", "title": "A constructed Vs_Profile satisfies the format rules", "statement": "Construction either raises TypeError/ValueError or yields rows with positive thickness (last one non-negative), positive Vs, damping and density, integer material numbers, z_max equal to the total thickness and n_layer equal to the number of rows with non-zero thickness at the end; with add_halfspace the last row has zero thickness.", "quantifier": "every 2- or 5-column input array and option combination", "why_tests_cant": "class invariant over all inputs", "anchors": ["PySeismoSoil/class_Vs_profile.py:Vs_Profile.__init__", "PySeismoSoil/helper_generic.py:check_Vs_profile_format", "PySeismoSoil/helper_site_response.py:get_xi_rho"]}
{"id": "C12", "title": "Querying Vs for given thicknesses returns one Vs per layer", "statement": "query_Vs_given_thk returns exactly one Vs per requested layer, equal to the Vs of the original profile at the layer top (or mid-point); with a scalar thickness it creates ceil(z_max/thk) layers, which cover the profile.", "quantifier": "every valid profile, every scalar thickness > 0, every thickness list", "why_tests_cant": "array-length agreement for all inputs including a trailing zero thickness", "anchors": ["PySeismoSoil/helper_site_response.py:query_Vs_given_thk", "PySeismoSoil/class_Vs_profile.py:Vs_Profile.query_Vs_given_thk"]}
{"id": "C13", "title": "Multi-curve containers behave like typed Python lists", "statement": "Under any sequence of indexing, slicing, assignment, append and deletion a Multiple_*_Curves object has the contents a Python list would have, its n_layer equals its length, and all elements stay of the declared curve class; wrongly typed elements and indices raise TypeError and change nothing.", "quantifier": "every operation history of any length", "why_tests_cant": "state invariant over unbounded histories", "anchors": ["PySeismoSoil/class_curves.py:Multiple_Curves.__getitem__", "PySeismoSoil/class_curves.py:Multiple_Curves.__setitem__", "PySeismoSoil/class_curves.py:Multiple_Curves.__delitem__", "PySeismoSoil/class_curves.py:Multiple_Curves.append"]}
{"id": "C14", "title": "Multi-layer parameter containers behave like typed Python lists", "statement": "Under any sequence of get, slice, set and delete operations a Param_Multi_Layer object has list contents, n_layer equals its length and every element is an instance of the declared parameter class.", "quantifier": "every operation history of any length", "why_tests_cant": "state invariant over unbounded histories", "anchors": ["PySeismoSoil/class_parameters.py:Param_Multi_Layer.__setitem__", "PySeismoSoil/class_parameters.py:Param_Multi_Layer.__delitem__", "PySeismoSoil/class_parameters.py:Param_Multi_Layer.__getitem__"]}
{"id": "C15", "title": "A parameter object always has exactly its allowable keys", "statement": "HH_Param and MKZ_Param objects have exactly the 9 (4) model keys after construction and after any history of dictionary operations; foreign keys raise KeyError and deletion raises ValueError, leaving the object unchanged.", "quantifier": "every history of dictionary operations (item assignment, update, setdefault, pop, popitem, clear, del, merge operators)", "why_tests_cant": "invariant over histories and over inherited dict methods", "anchors": ["PySeismoSoil/class_parameters.py:Parameter.__init__", "PySeismoSoil/class_parameters.py:Parameter.__setitem__", "PySeismoSoil/class_parameters.py:Parameter.__delitem__"]}
{"id": "C16", "title": "Parameter serialisation round-trips", "statement": "Serialising HH or MKZ parameters to an array and deserialising returns the same parameters in the documented order; the H4 file layout round-trips everything but Gmax, which becomes 1; multi-layer serialisation to a 2D array and reading back returns the same layers in order.", "quantifier": "every parameter set, every number of layers", "why_tests_cant": "round trip over all values and any number of layers", "anchors": ["PySeismoSoil/helper_hh_model.py:serialize_params_to_array", "PySeismoSoil/helper_hh_model.py:deserialize_array_to_params", "PySeismoSoil/helper_mkz_model.py:serialize_params_to_array", "PySeismoSoil/helper_mkz_model.py:deserialize_array_to_params", "PySeismoSoil/class_parameters.py:Param_Multi_Layer.serialize_to_2D_array", "PySeismoSoil/helper_generic.py:extract_from_param_format"]}
{"id": "C17", "title": "Curve matrices split and merge without loss", "statement": "Splitting a curve matrix into per-layer G/Gmax and damping curves and reassembling it returns the matrix; merging two matrices takes G/Gmax columns from the first and damping columns from the second, layer by layer; malformed column counts raise ValueError/TypeError.", "quantifier": "every matrix with 4n columns and any number of rows", "why_tests_cant": "round trip over all shapes and contents", "anchors": ["PySeismoSoil/helper_generic.py:extract_from_curve_format", "PySeismoSoil/helper_generic.py:merge_curve_matrices", "PySeismoSoil/class_curves.py:Multiple_GGmax_Damping_Curves"]}
{"id": "C18", "title": "Constructing a curve does not modify the array passed in", "statement": "Curve, Damping_Curve and Stress_Curve leave the caller's array unchanged whatever the units, so that two curves built from the same array are equal.", "quantifier": "every data array and unit choice, any number of constructions", "why_tests_cant": "aliasing over construction histories", "anchors": ["PySeismoSoil/class_curves.py:Curve.__init__", "PySeismoSoil/class_curves.py:Damping_Curve.__init__", "PySeismoSoil/class_curves.py:Stress_Curve.__init__"]}
{"id": "C19", "title": "Numerical differentiation undoes numerical integration", "statement": "For uniformly spaced time, differentiating the integrated velocity returns the acceleration at every sample but the first (which is 0), and integrating the differentiated record returns the record minus its first value.", "quantifier": "every record of any length, every dt", "why_tests_cant": "exact algebraic inverse for all lengths and values", "anchors": ["PySeismoSoil/helper_site_response.py:num_int", "PySeismoSoil/helper_site_response.py:num_diff"]}
{"id": "C20", "title": "Constructing a Ground_Motion does not modify the array passed in", "statement": "Ground_Motion(array, unit=...) leaves the caller's array unchanged, so constructing from the same array twice yields equal motions.", "quantifier": "every array, every unit, any number of constructions", "why_tests_cant": "aliasing over construction histories", "anchors": ["PySeismoSoil/class_ground_motion.py:Ground_Motion.__init__", "PySeismoSoil/helper_generic.py:read_two_column_stuff"]}
{"id": "C21", "title": "Saving a ground motion does not change it", "statement": "save_accel(fname, unit=...) writes the acceleration converted to the requested unit and leaves the motion object unchanged, so saving twice writes the same file twice.", "quantifier": "every motion, every unit, every sequence of saves", "why_tests_cant": "effect on the object visible only over histories", "anchors": ["PySeismoSoil/class_ground_motion.py:Ground_Motion.save_accel"]}
{"id": "C22", "title": "Arias intensity is a non-decreasing energy measure", "statement": "The Arias intensity time series starts at 0, never decreases, equals pi/(2g) dt times the sum of squared previous samples; its normalised version lies in [0,1] and ends at 1 whenever any sample but the last is non-zero; scaling the motion by c scales it by c^2.", "quantifier": "every acceleration record of any length", "why_tests_cant": "invariant of a running sum over all records", "anchors": ["PySeismoSoil/class_ground_motion.py:Ground_Motion.__calc_Arias", "PySeismoSoil/helper_gof_scores.py:calc_AriasIntensity"]}
{"id": "C23", "title": "Arias time bounds bracket the strong-motion part", "statement": "The times at which the normalised Arias intensity crosses a low and a high threshold are ordered, lie within the record and the normalised intensity is at or below the threshold before and above it after; low >= high raises ValueError.", "quantifier": "every monotone normalised series and every threshold pair", "why_tests_cant": "crossing property for all monotone sequences", "anchors": ["PySeismoSoil/class_ground_motion.py:Ground_Motion.__arias_time_bounds"]}
{"id": "C24", "title": "Truncating a motion returns the requested time window", "statement": "Ground_Motion.truncate((t1,t2)) returns exactly the samples between t1 and t2 (rounded to dt), clipped to the record; a window outside of the record is not answered with other data.", "quantifier": "every record, every window", "why_tests_cant": "boundary behaviour over all windows", "anchors": ["PySeismoSoil/class_ground_motion.py:Ground_Motion.truncate"]}
{"id": "C25", "title": "Scaling a motion hits the target PGA", "statement": "scale_motion(target_PGA_in_g=p) yields a motion with PGA p; scale_motion(factor=c) multiplies every sample by c.", "quantifier": "every motion with non-zero PGA, every positive target, every factor", "why_tests_cant": "algebraic law over all records", "anchors": ["PySeismoSoil/class_ground_motion.py:Ground_Motion.scale_motion"]}
{"id": "C26", "title": "Response spectra scale linearly with the motion", "statement": "Multiplying the acceleration by c multiplies every spectral ordinate (SA, SV, SD, PSA, PSV) by |c|; ordinates are non-negative and at least the response at any time step; PSV = wn SD and PSA = wn PSV.", "quantifier": "every record, every period grid, every damping, every c", "why_tests_cant": "linearity of an unbounded recursion", "anchors": ["PySeismoSoil/helper_site_response.py:response_spectra", "PySeismoSoil/helper_site_response.py:_time_stepping"]}
{"id": "C27", "title": "Response spectra require evenly spaced time", "statement": "response_spectra raises ValueError whenever the time spacing deviates from uniform by more than the tolerance.", "quantifier": "every time array", "why_tests_cant": "one-sided check fails only for shrinking intervals", "anchors": ["PySeismoSoil/helper_site_response.py:response_spectra"]}
{"id": "C28", "title": "The oscillator recursion is exact for piecewise-linear excitation", "statement": "The displacement and velocity computed at each time step equal the exact solution of the damped oscillator equation, driven by the linear interpolation of the acceleration samples.", "quantifier": "every record, dt > 0, period > 0, damping in (0,1)", "why_tests_cant": "statement about a differential equation at every step for all inputs", "anchors": ["PySeismoSoil/helper_site_response.py:response_spectra", "PySeismoSoil/helper_site_response.py:_time_stepping"]}
{"id": "C29", "title": "The two-sided transfer function makes filtered motions real", "statement": "amplify_motion extends the one-sided transfer function to a conjugate-symmetric two-sided one of the record length (odd and even), so the inverse transform of the product is real and taking the real part discards nothing.", "quantifier": "every record length, every transfer function", "why_tests_cant": "symmetry over all lengths and both parities", "anchors": ["PySeismoSoil/helper_site_response.py:amplify_motion", "PySeismoSoil/helper_simulations.py:_lin_resp_every_layer"]}
{"id": "C30", "title": "Deconvolution undoes amplification", "statement": "Amplifying a motion with a transfer function and deconvolving the result with the same transfer function returns the motion, if the transfer function has no zero at the used frequencies; a unit transfer function returns the motion itself.", "quantifier": "every record, every nowhere-zero transfer function", "why_tests_cant": "identity through a discrete Fourier transform of any length", "anchors": ["PySeismoSoil/helper_site_response.py:amplify_motion", "PySeismoSoil/class_ground_motion.py:Ground_Motion.amplify", "PySeismoSoil/class_ground_motion.py:Ground_Motion.deconvolve"]}
{"id": "C31", "title": "find_f0 returns the frequency of the first peak", "statement": "find_f0 returns the frequency of the first local maximum of the amplitude spectrum and the last frequency if the spectrum keeps increasing.", "quantifier": "every spectrum with at least two points", "why_tests_cant": "off-by-one only at one position of the peak", "anchors": ["PySeismoSoil/helper_site_response.py:find_f0", "PySeismoSoil/class_frequency_spectrum.py:Frequency_Spectrum.get_f0"]}
{"id": "C32", "title": "robust_unwrap leaves phase samples that need no repair unchanged", "statement": "robust_unwrap only alters samples that lie on a multi-sample upward climb, and returns a non-wrapping phase with the same number of samples; a phase array that is non-increasing is returned by the repair step as it is.", "quantifier": "every phase array", "why_tests_cant": "index -1 reads the other end of the array, depends on the global shape of the signal", "anchors": ["PySeismoSoil/helper_site_response.py:robust_unwrap"]}
{"id": "C33", "title": "Outcrop, incident and borehole transfer functions are consistent", "statement": "At every frequency the incident-wave transfer function is twice the rock-outcrop one; a one-layer (uniform half-space) profile has transfer function 1; the borehole transfer function equals the ratio of surface to base displacement.", "quantifier": "every layered profile and frequency", "why_tests_cant": "identity of matrix products of unbounded length", "anchors": ["PySeismoSoil/helper_site_response.py:linear_tf"]}
{"id": "C34", "title": "Transfer functions do not depend on subdivision of homogeneous layers", "statement": "Splitting a layer into two of the same properties leaves all three linear transfer functions unchanged at every frequency, so re-discretisation does not alter linear results.", "quantifier": "every layered profile, every split, every frequency", "why_tests_cant": "metamorphic relation over matrix products of unbounded length", "anchors": ["PySeismoSoil/helper_site_response.py:linear_tf", "PySeismoSoil/helper_simulations.py:_lin_resp_every_layer"]}
{"id": "C35", "title": "The two linear solvers agree", "statement": "For the same profile and frequency the every-layer solver gives the same surface transfer function as linear_tf: the rock-outcrop one for the elastic boundary and the borehole one for the rigid boundary.", "quantifier": "every layered profile, every frequency, both boundaries", "why_tests_cant": "equivalence of two algorithms for unbounded number of layers", "anchors": ["PySeismoSoil/helper_site_response.py:linear_tf", "PySeismoSoil/helper_simulations.py:_lin_resp_every_layer", "PySeismoSoil/helper_simulations.py:linear"]}
{"id": "C36", "title": "Console verbosity does not influence equivalent-linear results", "statement": "equiv_linear(..., verbose=True) and verbose=False return the same results for the same inputs.", "quantifier": "every input and response model", "why_tests_cant": "dependence of a loop exit on a print flag, over all iteration histories", "anchors": ["PySeismoSoil/helper_simulations.py:equiv_linear"]}
{"id": "C37", "title": "Equivalent-linear iterations stop when converged", "statement": "The equivalent-linear loop performs at most max_iter iterations and stops at the first iteration whose modulus and damping changes are both within tolerance.", "quantifier": "every input, tolerance and iteration limit", "why_tests_cant": "loop property over unbounded histories", "anchors": ["PySeismoSoil/helper_simulations.py:equiv_linear"]}
{"id": "C38", "title": "Equivalent-linear moduli and damping stay within the curves", "statement": "At every iteration the modulus of each layer lies between Gmax times the smallest and largest curve value and Gmax, and its damping within the range of its damping curve, whatever the strain.", "quantifier": "every strain history, every curve set, every iteration", "why_tests_cant": "interpolation bound over unbounded iterations", "anchors": ["PySeismoSoil/helper_simulations.py:equiv_linear"]}
{"id": "C39", "title": "The profile returned by the equivalent-linear run is the input soil", "statement": "The re-discretised profile reported with the results carries the damping ratios of the input profile.", "quantifier": "every run", "why_tests_cant": "aliasing: overwritten by iterations through a view", "anchors": ["PySeismoSoil/helper_simulations.py:equiv_linear"]}
{"id": "C40", "title": "Damping from stress-strain curves is physical", "statement": "Hysteretic damping calculated from a stress-strain backbone is never negative, is zero at the first strain and for linear material, does not change when stresses are scaled, and never exceeds 2/pi for a non-decreasing backbone.", "quantifier": "every strain/stress curve of any length", "why_tests_cant": "inequalities over running trapezoid sums of any length", "anchors": ["PySeismoSoil/helper_site_response.py:calc_damping_from_stress_strain"]}
{"id": "C41", "title": "G/Gmax from stress-strain curves is consistent", "statement": "calc_GGmax_from_stress_strain gives values whose product with Gmax and strain is the stress; with the default Gmax the first value is 1; a zero first strain raises ValueError.", "quantifier": "every strain/stress curve", "why_tests_cant": "identity for all curves", "anchors": ["PySeismoSoil/helper_site_response.py:calc_GGmax_from_stress_strain"]}
{"id": "C42", "title": "The MKZ backbone is a degradation curve", "statement": "For positive parameters tau_MKZ is odd in strain, has slope at most Gmax, G/Gmax in (0,1] decreasing with strain magnitude, equals half of Gmax*gamma at gamma_ref if beta=1, and is non-decreasing if s <= 1.", "quantifier": "every strain and every positive parameter set", "why_tests_cant": "real-analysis inequalities over continua", "anchors": ["PySeismoSoil/helper_mkz_model.py:tau_MKZ"]}
{"id": "C43", "title": "FKZ stress never exceeds the shear strength", "statement": "For positive strain and parameters tau_FKZ is positive, strictly below Tmax and increasing with strain.", "quantifier": "every strain > 0 and every positive parameter set", "why_tests_cant": "real-analysis inequalities over continua", "anchors": ["PySeismoSoil/helper_hh_model.py:tau_FKZ"]}
{"id": "C44", "title": "The HH model blends MKZ and FKZ", "statement": "The transition weight is in [0,1], does not increase with strain magnitude, and tau_HH lies between tau_MKZ and tau_FKZ at every strain.", "quantifier": "every strain and every valid parameter set", "why_tests_cant": "inequalities over continua incl. overflow guards", "anchors": ["PySeismoSoil/helper_hh_model.py:transition_function", "PySeismoSoil/helper_hh_model.py:tau_HH"]}
{"id": "C45", "title": "Vertical stress is the overburden weight", "statement": "The vertical stress at the middle of each layer equals g times the mass per area above that point, and strictly increases with depth.", "quantifier": "every profile", "why_tests_cant": "running sum over any number of layers", "anchors": ["PySeismoSoil/helper_hh_calibration.py:_calc_vertical_stress"]}
{"id": "C46", "title": "Calibration soil properties are admissible", "statement": "Densities are at least 1650 kg/m^3, Gmax = rho Vs^2 > 0, shear strengths are positive, plasticity indices take the values 10, 5, 0 at the documented Vs limits and K0 is positive.", "quantifier": "every profile", "why_tests_cant": "range claims over continua", "anchors": ["PySeismoSoil/helper_hh_calibration.py:_calc_rho", "PySeismoSoil/helper_hh_calibration.py:_calc_Gmax", "PySeismoSoil/helper_hh_calibration.py:_calc_shear_strength", "PySeismoSoil/helper_hh_calibration.py:_calc_PI", "PySeismoSoil/helper_hh_calibration.py:_calc_K0"]}
{"id": "C47", "title": "Darendeli G/Gmax curves are degradation curves", "statement": "The Darendeli (2001) G/Gmax values lie strictly between 0 and 1 and decrease with strain, and the documented default strain array can be used.", "quantifier": "every strain array and soil state", "why_tests_cant": "real-analysis inequalities; default-argument path", "anchors": ["PySeismoSoil/helper_hh_calibration.py:produce_Darendeli_curves"]}
{"id": "C48", "title": "The FKZ optimisation returns parameters within its search range", "statement": "The calibration kernel always returns a = 100, a shape power d in [0.67, 1.39] and a transition strain that is either a strain sample within the search bounds or the fall-back 0.001%; the transition strain is the first sample at which the MKZ and the FKZ stresses are closest, and no admissible power of the grid makes the two curves closer up to it.", "quantifier": "every strain grid and soil state", "why_tests_cant": "outcome of a cascade of grid searches", "anchors": ["PySeismoSoil/helper_hh_calibration.py:_optimization_kernel"]}
{"id": "C49", "title": "Damping calibration starts each curve at the profile damping", "statement": "With use_Darendeli_Dmin=False each generated damping curve starts at the damping ratio of its layer; get_H4_x_param returns MKZ parameters.", "quantifier": "every profile", "why_tests_cant": "relation for all profiles; wrong delegation", "anchors": ["PySeismoSoil/class_damping_calibration.py:Damping_Calibration.get_damping_curves", "PySeismoSoil/class_damping_calibration.py:Damping_Calibration.get_H4_x_param"]}
{"id": "C50", "title": "Capped SVM profiles never exceed the cap", "statement": "With Vs_cap the SVM base profile is non-decreasing, never exceeds Vs_cap, ends with a zero-thickness Vs_cap half space; without reaching the cap the smooth values are kept.", "quantifier": "every smooth profile, cap and eta in (0,1]", "why_tests_cant": "index arithmetic over profiles of any length", "anchors": ["PySeismoSoil/class_svm.py:SVM.__init__"]}
{"id": "C51", "title": "SVM reports a numeric bedrock velocity", "statement": "svm.bedrock_Vs is the velocity (m/s) of the half space of the base profile: 1000 if Vs_cap is True, Vs_cap if it is a number; and a discretised profile can be requested and has this half space.", "quantifier": "every Vs30, z1 and Vs_cap", "why_tests_cant": "rare branch (z1 <= 2.5) and None path", "anchors": ["PySeismoSoil/class_svm.py:SVM.__init__", "PySeismoSoil/class_svm.py:SVM.get_discretized_profile"]}
{"id": "C52", "title": "Randomised layering fills the basin exactly", "statement": "For every sequence of random draws the layering loop terminates, thicknesses are positive, at least 2 m except for the last layer, and add up to z1.", "quantifier": "every random stream, every z1 > 0", "why_tests_cant": "all random outcomes", "anchors": ["PySeismoSoil/class_svm.py:SVM._helper_get_rand_profile"]}
{"id": "C53", "title": "Site factors accept exactly the covered inputs", "statement": "Site_Factors accepts a (Vs30, z1, PGA) triple exactly if each is in range and the Vs30-z1 pair is admissible; with lenient=True out-of-range values are replaced by the closest bound and the resulting triple is in range.", "quantifier": "every real triple, both modes", "why_tests_cant": "decision logic over a continuum", "anchors": ["PySeismoSoil/class_site_factors.py:Site_Factors.__init__", "PySeismoSoil/class_site_factors.py:Site_Factors._range_check"]}
{"id": "C54", "title": "Every accepted site-factor query has its eight reference data sets", "statement": "For every accepted (Vs30, z1, PGA) the eight surrounding grid points all have data files shipped with the package and bracket the query in each coordinate.", "quantifier": "every accepted triple", "why_tests_cant": "continuum of queries against a non-rectangular data table", "anchors": ["PySeismoSoil/class_site_factors.py:Site_Factors._find_neighbors", "PySeismoSoil/class_site_factors.py:Site_Factors._search_sorted", "PySeismoSoil/class_site_factors.py:Site_Factors._locate_grids", "PySeismoSoil/data/amplification", "PySeismoSoil/data/phase"]}
{"id": "C55", "title": "Goodness-of-fit scores are bounded and signed", "statement": "The score of two values lies in (-10, 10), is 0 for equal values, positive exactly if the simulation exceeds the measurement and increases with the simulation, where values below machine epsilon count as machine epsilon.", "quantifier": "every pair of non-negative values", "why_tests_cant": "analysis of erf over a continuum", "anchors": ["PySeismoSoil/helper_gof_scores.py:S_"]}
{"id": "C56", "title": "calc_scores fills exactly the requested score slots", "statement": "calc_scores returns the requested groups in order d1..d10, and the stored score array holds at any time the last computed value of each slot and NaN for those never computed, over any history of calls.", "quantifier": "every sequence of calls with any option combination", "why_tests_cant": "history-dependent state", "anchors": ["PySeismoSoil/class_gof_scores.py:GOF_Scores.calc_scores", "PySeismoSoil/class_gof_scores.py:GOF_Scores.__str__"]}
{"id": "C57", "title": "The cross-correlation score is at least 0.1", "statement": "d_10 is at least 0.1 and equals 0.1 for identical or proportional series.", "quantifier": "every pair of records of equal length", "why_tests_cant": "Cauchy-Schwarz over records of any length", "anchors": ["PySeismoSoil/helper_gof_scores.py:d_10"]}
{"id": "C58", "title": "Batch results are in order and schedule-independent", "statement": "Batch_Simulation.run returns one result per simulation, in the order given, equal for serial and parallel runs under any worker schedule; failed simulations give None if errors are caught; each simulation gets its own output directory.", "quantifier": "every batch size, every schedule", "why_tests_cant": "schedules and unbounded batch size", "anchors": ["PySeismoSoil/class_batch_simulation.py:Batch_Simulation.run", "PySeismoSoil/class_batch_simulation.py:Batch_Simulation._run_single_sim"]}
{"id": "C59", "title": "Running a batch leaves the options dictionary unchanged", "statement": "The options dictionary handed to Batch_Simulation.run is unchanged after the run.", "quantifier": "every batch and options", "why_tests_cant": "mutation through sharing", "anchors": ["PySeismoSoil/class_batch_simulation.py:Batch_Simulation._run_single_sim"]}
{"id": "C60", "title": "Layer counts are checked against material numbers", "statement": "Equivalent-linear and nonlinear simulations are accepted exactly if curve/parameter sets exist for every material number in the profile; accepted runs never index a missing material.", "quantifier": "every profile and parameter set", "why_tests_cant": "safety of indexing for all inputs", "anchors": ["PySeismoSoil/helper_simulations.py:check_layer_count", "PySeismoSoil/helper_simulations.py:equiv_linear"]}
{"id": "C61", "title": "A nonlinear run restores the working directory", "statement": "After Nonlinear_Simulation.run returns or raises at any point the process working directory is the one before the call.", "quantifier": "every crash point", "why_tests_cant": "crash points", "anchors": ["PySeismoSoil/class_simulation.py:Nonlinear_Simulation.run"]}
{"id": "C62", "title": "A nonlinear run never reuses an existing directory", "statement": "The simulation directory used by Nonlinear_Simulation.run did not exist before the call, and removing it afterwards removes nothing else.", "quantifier": "every file-system state", "why_tests_cant": "file-system states", "anchors": ["PySeismoSoil/class_simulation.py:Nonlinear_Simulation.run"]}
{"id": "C63", "title": "Result files go to the requested directory", "statement": "Simulation_Results.plot/to_txt write all files below the requested output directory, and Linear_Simulation.run honours output_dir and motion_name in both algorithms.", "quantifier": "every combination of options", "why_tests_cant": "option combinations", "anchors": ["PySeismoSoil/class_simulation_results.py:Simulation_Results.plot", "PySeismoSoil/class_simulation_results.py:Simulation_Results.to_txt", "PySeismoSoil/class_simulation.py:Linear_Simulation.run"]}
{"id": "C64", "title": "Filter requests are dispatched according to the cut-off frequencies", "statement": "High-pass with non-positive cut-off and low-pass at or above Nyquist return the record unchanged; band filters degenerate to one-sided filters at the band edges exactly as documented; invalid cut-offs raise ValueError.", "quantifier": "every cut-off pair and record", "why_tests_cant": "decision logic over a continuum", "anchors": ["PySeismoSoil/helper_signal_processing.py:_filter_kernel"]}
{"id": "C65", "title": "Smoothing keeps spectra within their range", "statement": "lin_smooth and log_smooth return arrays of the input length whose values for a non-negative signal are non-negative and do not exceed its maximum.", "quantifier": "every signal and window", "why_tests_cant": "convex-combination bound over all signals", "anchors": ["PySeismoSoil/helper_signal_processing.py:lin_smooth", "PySeismoSoil/helper_signal_processing.py:log_smooth"]}
{"id": "C66", "title": "find_closest_index returns a nearest element", "statement": "find_closest_index returns the first index whose element is nearest to the value, and (None, None) for an empty array.", "quantifier": "every array and value", "why_tests_cant": "minimality over arrays of any length", "anchors": ["PySeismoSoil/helper_generic.py:find_closest_index", "PySeismoSoil/class_svm.py:SVM._find_index_closest"]}
{"id": "C67", "title": "One-column input is given a uniform axis", "statement": "One-column data with interval d becomes two columns with axis d, 2d, ..., nd and the data unchanged; missing interval raises ValueError.", "quantifier": "every one-column array", "why_tests_cant": "all lengths incl. degenerate ones", "anchors": ["PySeismoSoil/helper_generic.py:read_two_column_stuff"]}
{"id": "C68", "title": "Fitting damping curves does not modify the curves", "statement": "Fitting all damping curves returns parameters in layer order, identical for serial and parallel execution, and leaves the given curves unchanged.", "quantifier": "every list of curves, serial or parallel", "why_tests_cant": "aliasing and schedules", "anchors": ["PySeismoSoil/helper_site_response.py:fit_all_damping_curves", "PySeismoSoil/helper_hh_model.py:fit_HH_x_single_layer", "PySeismoSoil/helper_mkz_model.py:fit_H4_x_single_layer"]}
{"id": "C69", "title": "Requested number of CPU cores is honoured", "statement": "ga_optimization uses n_cores workers when parallel with n_cores given and all cores when n_cores is None.", "quantifier": "every argument combination", "why_tests_cant": "decision table", "anchors": ["PySeismoSoil/helper_site_response.py:ga_optimization"]}
{"id": "C70", "title": "Unwrapping phases yields an unwrapped spectrum", "statement": "Frequency_Spectrum.get_unwrapped_phase returns a spectrum over the same frequencies whose phase is unwrapped; get_smoothed returns a smoothed spectrum with default arguments.", "quantifier": "every spectrum", "why_tests_cant": "phase re-wrapping and unbound variable on the default path", "anchors": ["PySeismoSoil/class_frequency_spectrum.py:Frequency_Spectrum.get_unwrapped_phase", "PySeismoSoil/class_frequency_spectrum.py:Frequency_Spectrum.get_smoothed"]}
{"id": "C71", "title": "Simulation results always have matching shapes", "statement": "For every motion length (even or odd) and profile, the arrays produced by the every-layer linear solver have as many time steps as the input and one column per interface (per layer for strain and stress).", "quantifier": "every record length and number of layers", "why_tests_cant": "parity-dependent padding", "anchors": ["PySeismoSoil/helper_simulations.py:_prepare_inputs", "PySeismoSoil/helper_simulations.py:_post_processing", "PySeismoSoil/class_simulation_results.py:Simulation_Results.__init__"]}
{"id": "C72", "title": "Density and damping correlations are total and positive", "statement": "get_xi_rho assigns positive damping and density to every positive Vs for each documented formula.", "quantifier": "every Vs > 0", "why_tests_cant": "range over a continuum", "anchors": ["PySeismoSoil/helper_site_response.py:get_xi_rho"]}
{"id": "C73", "title": "A Vs profile is independent of later changes to the array it was built from", "statement": "After a Vs_Profile has been constructed, writing to the array passed to the constructor changes neither the profile nor the result of any method.", "quantifier": "every array, every later write", "why_tests_cant": "sharing of memory between objects", "anchors": ["PySeismoSoil/class_Vs_profile.py:Vs_Profile.__init__", "PySeismoSoil/class_Vs_profile.py:Vs_Profile.truncate"]}
{"id": "C74", "title": "Profile output works with defaults and keeps units consistent", "statement": "to_txt succeeds with its default arguments; slowness output is the reciprocal of the velocity and the km output has thickness and velocity divided by 1000 with all other columns unchanged.", "quantifier": "every profile and precision argument", "why_tests_cant": "type of default argument; all rows", "anchors": ["PySeismoSoil/class_Vs_profile.py:Vs_Profile.to_txt", "PySeismoSoil/class_Vs_profile.py:Vs_Profile.get_slowness", "PySeismoSoil/class_Vs_profile.py:Vs_Profile.output_as_km_unit"]}
{"id": "C75", "title": "Saving a curve matrix writes the requested file", "statement": "get_curve_matrix called with save_to_file=True and a file name writes the curve matrix to that file.", "quantifier": "every container of curves and file name", "why_tests_cant": "an ignored argument has to be shown to be ignored on every path", "anchors": ["PySeismoSoil/class_curves.py:Multiple_Damping_Curves.get_curve_matrix", "PySeismoSoil/class_curves.py:Multiple_GGmax_Curves.get_curve_matrix"]}
{"id": "C76", "title": "Output file names are derived by removing the curve_ prefix only", "statement": "The parameter file written for a curve file \"curve_SITE.txt\" is named \"HH_x_SITE.txt\"; for a file without that prefix the complete site name is kept.", "quantifier": "every file name", "why_tests_cant": "all strings", "anchors": ["PySeismoSoil/class_curves.py:Multiple_Damping_Curves._produce_output_file_name"]}
{"id": "C77", "title": "The unit must be consistent with the motion type", "statement": "Ground_Motion rejects with ValueError a unit that does not measure the given motion type, an unknown unit and an unknown motion type (documented: acceleration in \"m/s\" raises an exception).", "quantifier": "every unit, every motion type, every record", "why_tests_cant": "combination of two enumerations over all records", "anchors": ["PySeismoSoil/class_ground_motion.py:Ground_Motion.__init__"]}
{"id": "C78", "title": "The time attribute is the time column", "statement": "Ground_Motion.time is identical to the first column of accel, veloc and displ (documented: first column \"identical to time\").", "quantifier": "every one-column or two-column record", "why_tests_cant": "relation of two attributes for all records", "anchors": ["PySeismoSoil/class_ground_motion.py:Ground_Motion.__init__", "PySeismoSoil/helper_generic.py:read_two_column_stuff"]}
{"id": "C79", "title": "Transfer functions are finite", "statement": "For every profile with positive damping, velocity and density and every positive frequency, the denominators of the rock-outcrop, incident and borehole transfer functions computed by linear_tf are non-zero, so no returned value is infinite or NaN.", "quantifier": "all profiles with any number of layers, all positive frequencies", "why_tests_cant": "Tests sample a few profiles and a frequency grid; a resonance could fall between the sampled values.", "anchors": ["PySeismoSoil/helper_site_response.py:1292-1342"]}
{"id": "C80", "title": "Each frequency component is multiplied by the transfer function at its own frequency", "statement": "amplify_motion multiplies the Fourier component of the motion at frequency f by the (interpolated) transfer function at frequency f.", "quantifier": "every record length, every component, every transfer function covering the frequency range", "why_tests_cant": "an index shift of one bin changes smooth spectra little and needs all components of all lengths", "anchors": ["PySeismoSoil/helper_site_response.py:amplify_motion", "PySeismoSoil/helper_site_response.py:_get_freq_interval"]}
{"id": "C81", "title": "Amplification is linear in the motion", "statement": "For motions sampled at the same times, the response of c*x1 + x2 is c times the response of x1 plus the response of x2, for amplification and deconvolution, with or without extrapolation of the transfer function.", "quantifier": "all motions, all transfer functions, all factors", "why_tests_cant": "superposition over all records", "anchors": ["PySeismoSoil/helper_site_response.py:amplify_motion"]}
{"id": "C82", "title": "Linear site response is defined for every record and keeps the mean", "statement": "linear_site_resp returns for every motion with at least two samples and increasing time a response at the same times with the same mean value, together with the transfer function used: rock outcrop for boundary \"elastic\", borehole for \"rigid\"; any other boundary is rejected with ValueError.", "quantifier": "every profile, every record of every length", "why_tests_cant": "totality over all record lengths and both parities", "anchors": ["PySeismoSoil/helper_site_response.py:linear_site_resp"]}
{"id": "C83", "title": "Acceleration, velocity and displacement of a motion belong together", "statement": "Whichever of acceleration, velocity or displacement is given to Ground_Motion, in any unit, the object has displacement increments equal to dt times velocity and velocity increments equal to dt times acceleration at every sample, on the same time axis.", "quantifier": "every uniformly sampled record, unit and motion type", "why_tests_cant": "relation of three attributes at every sample for all records", "anchors": ["PySeismoSoil/class_ground_motion.py:Ground_Motion.__init__", "PySeismoSoil/helper_site_response.py:num_int", "PySeismoSoil/helper_site_response.py:num_diff"]}
{"id": "C84", "title": "Unit conversion covers the acceleration units and rejects all others", "statement": "_unit_convert returns the acceleration in m/s/s, cm/s/s, gal or g with unchanged times and raises ValueError for any other unit.", "quantifier": "every record and unit", "why_tests_cant": "all samples of all records", "anchors": ["PySeismoSoil/class_ground_motion.py:Ground_Motion._unit_convert"]}
{"id": "C85", "title": "Continuation of the transfer function outside its table", "statement": "With extrap_tf=True, amplify_motion uses the tabulated values inside the table, beyond the last frequency the last amplitude with a phase proportional to frequency, and below the first frequency a straight line from 1 (phase 0) at df.", "quantifier": "every increasing table, every record, every component", "why_tests_cant": "continuity of the extension at every frequency", "anchors": ["PySeismoSoil/helper_site_response.py:amplify_motion"]}
{"id": "C86", "title": "A complex transfer function is used with its own values", "statement": "The amplitude and unwrapped phase that amplify_motion derives from a complex transfer function represent the same complex numbers.", "quantifier": "every complex transfer function", "why_tests_cant": "holds for typical transfer functions and fails for phases beginning with a climb", "anchors": ["PySeismoSoil/helper_site_response.py:amplify_motion", "PySeismoSoil/helper_site_response.py:robust_unwrap"]}
{"id": "C87", "title": "The re-discretised profile in the results has the densities of the input", "statement": "rediscretized_profile of the results of Linear_Simulation.run and Equiv_Linear_Simulation.run has, layer by layer, the thickness, velocity, damping, density and material number of the profile the solver used.", "quantifier": "every valid profile with half space, every motion", "why_tests_cant": "an attribute of a derived object that the response itself does not depend on", "anchors": ["PySeismoSoil/class_simulation.py:Linear_Simulation.run", "PySeismoSoil/class_simulation.py:Equiv_Linear_Simulation.run", "PySeismoSoil/class_Vs_profile.py:Vs_Profile.__init__"]}
{"id": "C88", "title": "The reported transfer function belongs to the reported frequencies", "statement": "Entry m of the transfer function returned by the every-layer solvers is the rock-outcrop (or rigid-base) transfer function of the re-discretised profile at entry m of the returned frequencies.", "quantifier": "every profile, record length and frequency", "why_tests_cant": "a shift within one frequency bin is invisible for smooth transfer functions", "anchors": ["PySeismoSoil/helper_simulations.py:_lin_resp_every_layer", "PySeismoSoil/helper_simulations.py:_post_processing"]}
{"id": "C89", "title": "Equivalent-linear results are mutually consistent", "statement": "The motions and strains returned by equiv_linear are the response of the profile (moduli and damping) that is returned with them, and the returned stresses follow from these strains with the moduli used for them.", "quantifier": "every profile, curve set, motion, tolerance and iteration limit", "why_tests_cant": "the mismatch is one iteration step, within the convergence tolerance for typical inputs", "anchors": ["PySeismoSoil/helper_simulations.py:equiv_linear"]}
{"id": "C90", "title": "Stress is complex modulus times strain", "statement": "For every layer the spectrum of the stress is G(1+2iD) times the spectrum of the strain at every positive frequency below Nyquist, the mean stress is G times the mean strain, and without damping stress is G times strain at every sample.", "quantifier": "every strain history of odd length, every modulus and damping", "why_tests_cant": "needs every frequency of every record", "anchors": ["PySeismoSoil/helper_simulations.py:_calc_stress"]}
{"id": "C91", "title": "The linear every-layer solver is linear in the motion", "statement": "For motions sampled at the same times, accelerations, velocities, displacements, strains and stresses of c*x1 + x2 in every layer are c times those of x1 plus those of x2, with the same profile, frequencies and transfer function.", "quantifier": "all motions, profiles, boundaries and factors", "why_tests_cant": "superposition over all records", "anchors": ["PySeismoSoil/helper_simulations.py:linear"]}
{"id": "C92", "title": "Equivalent-linear analysis with strain-independent curves is linear analysis", "statement": "If the modulus-reduction curves are 1 and the damping curves equal the damping of the layer at all strains, equiv_linear returns the same results as linear.", "quantifier": "every profile and motion", "why_tests_cant": "equality of two solvers for all inputs", "anchors": ["PySeismoSoil/helper_simulations.py:equiv_linear", "PySeismoSoil/helper_simulations.py:linear"]}
{"id": "C93", "title": "Array scores are the scalar scores, element by element", "statement": "S_ of two arrays of one length returns the scores of the pairs of elements, and leaves both arrays as they were.", "quantifier": "every pair of arrays of one length", "why_tests_cant": "mutation through sharing; arrays of any length", "anchors": ["PySeismoSoil/helper_gof_scores.py:S_"]}
{"id": "C94", "title": "Arias intensity of the scores is the one of the motion class", "statement": "calc_Arias of helper_gof_scores gives a non-decreasing series on the time axis of the record whose last value is the peak, scales with the square of the record, and is the series that Ground_Motion computes for the same acceleration.", "quantifier": "every record", "why_tests_cant": "for all records; two implementations agree", "anchors": ["PySeismoSoil/helper_gof_scores.py:calc_AriasIntensity", "PySeismoSoil/class_ground_motion.py:Ground_Motion"]}
{"id": "C95", "title": "A perfect simulation scores 0", "statement": "If measurement and simulation are the same record, the scores d1 to d9 are 0 whenever they are computed; for any two records they lie in (-10, 10); the frequency limits may be left out.", "quantifier": "every record, every filter, every option", "why_tests_cant": "for all records and any signal processing", "anchors": ["PySeismoSoil/helper_gof_scores.py:d_1234", "PySeismoSoil/helper_gof_scores.py:d_567", "PySeismoSoil/helper_gof_scores.py:d_89", "PySeismoSoil/helper_gof_scores.py:d_10"]}
{"id": "C96", "title": "RMS scores are computed in the requested frequency range", "statement": "d_567 scores only what the records contain in the range fmin to fmax, with and without baseline correction.", "quantifier": "every record, range and option", "why_tests_cant": "option interaction over all records", "anchors": ["PySeismoSoil/helper_gof_scores.py:d_567"]}
{"id": "C97", "title": "Serial and parallel batch scoring agree", "statement": "Batch_GOF_Scores.run returns the same scores in the same order for serial and parallel runs, and the score objects of the caller hold them afterwards in both cases.", "quantifier": "every batch, objects may occur twice", "why_tests_cant": "shared state across any batch", "anchors": ["PySeismoSoil/class_gof_scores.py:Batch_GOF_Scores.run", "PySeismoSoil/class_gof_scores.py:Batch_GOF_Scores._run_single_score"]}
{"id": "C98", "title": "Records of different lengths are brought to one time grid", "statement": "d_1234 interpolates the shorter curve if measurement and simulation have different lengths, and returns scores.", "quantifier": "every pair of records", "why_tests_cant": "for all record lengths", "anchors": ["PySeismoSoil/helper_gof_scores.py:d_1234"]}
{"id": "C99", "title": "Velocity, displacement and strain follow from the accelerations", "statement": "In the results of linear and equiv_linear the velocity of every layer is the running integral of its acceleration, the displacement the running integral of the velocity less a constant drift, and the strain of every layer the difference of the displacements of its top and bottom over its thickness.", "quantifier": "every profile, motion and set of curves", "why_tests_cant": "relations between outputs for all inputs", "anchors": ["PySeismoSoil/helper_simulations.py:_lin_resp_every_layer", "PySeismoSoil/helper_simulations.py:_post_processing"]}
{"id": "C100", "title": "A scaled simulation is scored by its scale", "statement": "If the simulation is c times the measurement and the filters are linear, the shape scores d1 and d2 are 0, the peak scores d3 and d4 are 10 erf(c^2-1) and the scores d5 to d9 are 10 erf(c-1), unless the measured quantity is below 1e-12.", "quantifier": "every record and factor, any linear signal processing", "why_tests_cant": "for all records, factors and filters", "anchors": ["PySeismoSoil/helper_gof_scores.py:d_1234", "PySeismoSoil/helper_gof_scores.py:d_567", "PySeismoSoil/helper_gof_scores.py:d_89"]}
{"id": "C101", "title": "Nonlinear kernel gets consistent input", "statement": "When Nonlinear_Simulation.run returns, the external solver was started in a fresh directory holding exactly its eight input files; profile.dat is the reported profile (g/cm^3), incident.dat the input motion (halved exactly for an elastic boundary), and the counts in control.dat agree with these files.", "quantifier": "all profiles, motions, boundaries, option combinations, file-system states and solver behaviours", "why_tests_cant": "Tests run one profile and look at the final results; the agreement of three separately written files for every input is not observable from them.", "anchors": ["PySeismoSoil/class_simulation.py:508-700"]}
{"id": "C102", "title": "Nonlinear results are what the kernel computed", "statement": "When Nonlinear_Simulation.run returns, the reported histories are the tables the solver wrote (one column per interface/layer, one row per step of the input), the surface motion is the first acceleration column at the input times, the maxima are the column maxima at the solver depths, and the transfer functions relate input and surface motion. It returns for every profile on which the solver succeeds.", "quantifier": "all profiles, motions and solver outputs", "why_tests_cant": "Tests use one multi-layer profile on a half space; one-layer profiles and profiles without half space are never run.", "anchors": ["PySeismoSoil/class_simulation.py:702-777", "PySeismoSoil/class_simulation_results.py:144-183"]}
{"id": "C103", "title": "Filters are linear, causal and without phase shift", "statement": "highpass, lowpass, bandpass and bandstop are linear in the record, return zeros for a zero record, use only past samples if zero phase is not claimed, and do not delay the record (the filtered record is described as an ordinary time history of the same time axis).", "quantifier": "every record, cut-off and filter order", "why_tests_cant": "statements about all records; needs linearity and symmetry of recursions of any length", "anchors": ["PySeismoSoil/helper_signal_processing.py:_filter_kernel", "PySeismoSoil/helper_signal_processing.py:highpass"]}
{"id": "C104", "title": "Smoothing keeps constants", "statement": "A constant signal is returned unchanged by lin_smooth and log_smooth, for every window.", "quantifier": "every constant, length and window", "why_tests_cant": "edge effects for all window lengths", "anchors": ["PySeismoSoil/helper_signal_processing.py:lin_smooth", "PySeismoSoil/helper_signal_processing.py:log_smooth"]}
{"id": "C105", "title": "Fourier spectra list each value at its own frequency", "statement": "fourier_transform returns, for every row, the Fourier coefficient of the record at the frequency of that row; calc_transfer_function returns the ratio of output and input spectrum at each frequency, c for an output that is c times the input, and rejects records on different time grids.", "quantifier": "every record", "why_tests_cant": "an offset of one frequency bin is not visible in a plot; needs all records", "anchors": ["PySeismoSoil/helper_signal_processing.py:fourier_transform", "PySeismoSoil/helper_signal_processing.py:calc_transfer_function"]}
{"id": "C106", "title": "Baseline correction keeps time axis and samples aligned", "statement": "baseline returns a record on the same time axis, which does not depend on a constant offset of the input, scales with a positive factor, and whose sample at every time is the corrected input sample of that time.", "quantifier": "every record and cut-off", "why_tests_cant": "alignment over all records and paddings", "anchors": ["PySeismoSoil/helper_signal_processing.py:baseline"]}
{"id": "C107", "title": "A frequency spectrum object describes the data it was made from", "statement": "Amplitude, phase and spectrum of Frequency_Spectrum are three views of the same values; without interpolation the values and frequencies are those given; with interpolation there are n_pts values from fmin to fmax, inside the range of the data.", "quantifier": "every spectrum, every grid", "why_tests_cant": "for all spectra and all interpolation options", "anchors": ["PySeismoSoil/class_frequency_spectrum.py:Frequency_Spectrum.__init__", "PySeismoSoil/helper_generic.py:interpolate"]}
{"id": "C108", "title": "The SVM base profile reaches bedrock at z1", "statement": "The base profile of an SVM object is a valid profile whose half space starts at depth z1 (the given one, or the one estimated from Vs30, which is positive and decreases with Vs30).", "quantifier": "every Vs30, z1 and Vs_cap", "why_tests_cant": "index arithmetic of a depth grid of any length", "anchors": ["PySeismoSoil/class_svm.py:SVM.__init__", "PySeismoSoil/helper_site_response.py:calc_z1_from_Vs30"]}
{"id": "C109", "title": "Iterating on Vs30 ends with a matching profile", "statement": "With iterate=True the loop over trial values ends (within 437 passes); the smooth profile used has a Vs30 within 10 m/s of the target, unless the next trial value would leave 130-1000 m/s; trial values never leave that range.", "quantifier": "every target and depth", "why_tests_cant": "loop invariant over any number of iterations", "anchors": ["PySeismoSoil/class_svm.py:SVM.__init__"]}
{"id": "C110", "title": "Compliant randomised profiles are found and meet the documented criteria", "statement": "With vs30_z1_compliance=True the returned profile is that of the first seed whose profile meets the three documented criteria, and the search ends.", "quantifier": "every SVM object and random stream", "why_tests_cant": "unbounded search; all random outcomes", "anchors": ["PySeismoSoil/class_svm.py:SVM.get_randomized_profile"]}
{"id": "C111", "title": "Site factors interpolate the tabulated curves", "statement": "For every accepted query the amplification and phase factors are, at each frequency, one convex combination of the eight tabulated curves around the query (so never outside of their range), equal the tabulated curve at a grid point, and are returned as real values over increasing frequencies (Fourier factors up to 20 Hz); both factors share one frequency axis.", "quantifier": "every accepted query, method and kind of factor", "why_tests_cant": "continuum of queries; convexity cannot be sampled", "anchors": ["PySeismoSoil/class_site_factors.py:Site_Factors._get_results", "PySeismoSoil/class_site_factors.py:Site_Factors._interpolate", "PySeismoSoil/class_site_factors.py:Site_Factors.get_amplification", "PySeismoSoil/class_site_factors.py:Site_Factors.get_phase_shift"]}
{"id": "C112", "title": "Site-effect adjustment multiplies the spectrum by the site factors", "statement": "For every accepted site and motion Site_Effect_Adjustment.run returns a real record on the time axis of the input whose Fourier spectrum is that of the input times the two-sided extension of the interpolated factors; the attributes are the parameters given (z1 estimated from Vs30 if omitted) and the peak acceleration of the motion.", "quantifier": "every accepted site and motion of at least two samples", "why_tests_cant": "for all motions and sites", "anchors": ["PySeismoSoil/class_site_effect_adjustment.py:Site_Effect_Adjustment.__init__", "PySeismoSoil/class_site_effect_adjustment.py:Site_Effect_Adjustment.run"]}
{"id": "C113", "title": "A real spectrum has zero phase", "statement": "If the spectrum of a Frequency_Spectrum has all real values, its phase is all zeros.", "quantifier": "every real spectrum", "why_tests_cant": "for all spectra", "anchors": ["PySeismoSoil/class_frequency_spectrum.py:Frequency_Spectrum"]}
{"id": "C114", "title": "Darendeli damping is bounded", "statement": "The Darendeli (2001) damping at any positive strain lies between the minimum damping of the soil and 34 percentage points above it, approaches the minimum damping at small strains, and more confining stress means less minimum damping and a larger reference strain.", "quantifier": "every soil state and strain", "why_tests_cant": "real-analysis inequalities over continua", "anchors": ["PySeismoSoil/helper_hh_calibration.py:produce_Darendeli_curves"]}
{"id": "C115", "title": "HH calibration yields admissible parameters in the documented order", "statement": "For every valid profile with finite densities the HH calibration succeeds and returns for each layer the nine values gamma_t, a, gamma_ref, beta, s, Gmax, mu, Tmax, d: all positive, gamma_t at most 3%, a = 100, d in [0.67, 1.39], Tmax the given strength if one is given; the parameter object has exactly the HH keys.", "quantifier": "every profile", "why_tests_cant": "range claims over continua and all numbers of layers", "anchors": ["PySeismoSoil/helper_hh_calibration.py:hh_param_from_profile", "PySeismoSoil/helper_hh_calibration.py:produce_HH_G_param", "PySeismoSoil/class_hh_calibration.py:HH_Calibration.fit"]}
{"id": "C116", "title": "Calibrated Gmax is the modulus of the profile", "statement": "The Gmax of each layer in the calibrated parameters is density times squared velocity of that layer of the profile.", "quantifier": "every profile, with and without G/Gmax curves", "why_tests_cant": "relation between input and output for all profiles", "anchors": ["PySeismoSoil/helper_hh_calibration.py:hh_param_from_profile", "PySeismoSoil/helper_hh_calibration.py:hh_param_from_curves"]}
{"id": "C117", "title": "One parameter set per soil layer", "statement": "HH_Calibration.fit returns one parameter set for each of the n_layer soil layers of the profile, and accepts a strength profile with n_layer entries.", "quantifier": "every profile, with and without half space", "why_tests_cant": "all numbers of layers", "anchors": ["PySeismoSoil/class_hh_calibration.py:HH_Calibration.fit", "PySeismoSoil/helper_hh_calibration.py:hh_param_from_profile"]}
{"id": "C118", "title": "Each layer is calibrated to its own G/Gmax curve", "statement": "With G/Gmax curves given for each layer, the MKZ parameters of layer j are those fitted to curve j.", "quantifier": "every profile and curve set", "why_tests_cant": "indexing for all layers and material numbers", "anchors": ["PySeismoSoil/helper_hh_calibration.py:hh_param_from_curves"]}
{"id": "C119", "title": "Fitted parameters respect the bounds and have the right names", "statement": "A fit of a damping curve with bounds [lower, upper] on the powers passes exactly these bounds to the optimiser, one pair per parameter, and returns a dictionary with exactly the HH (resp. MKZ) names that HH_Param (resp. MKZ_Param) accepts, all values within [10^lower, 10^upper]; for MKZ Gmax is 1. A fit of a non-empty curve succeeds whenever the optimiser does.", "quantifier": "every curve, bounds and optimiser that respects its bounds", "why_tests_cant": "depends on a random optimiser; tests use a single seed", "anchors": ["PySeismoSoil/helper_hh_model.py:fit_HH_x_single_layer", "PySeismoSoil/helper_mkz_model.py:fit_H4_x_single_layer", "PySeismoSoil/helper_site_response.py:ga_optimization"]}
{"id": "C120", "title": "Normalised curves do not depend on the modulus scale", "statement": "The G/Gmax and damping curves of an MKZ parameter set do not depend on Gmax; those of an HH parameter set do not change when Gmax and Tmax are multiplied by the same factor.", "quantifier": "every parameter set with positive values, every strain array", "why_tests_cant": "algebraic invariance over all parameters", "anchors": ["PySeismoSoil/class_parameters.py:Parameter.get_GGmax", "PySeismoSoil/class_parameters.py:Parameter.get_damping", "PySeismoSoil/helper_site_response.py:calc_damping_from_stress_strain"]}
{"id": "C121", "title": "A damping curve is fitted as it is shown", "statement": "get_HH_x_param and get_H4_x_param of a Damping_Curve fit the curve the object shows (strain and damping in percent, small-strain damping removed), whatever units and interpolation it was built with.", "quantifier": "every array, unit and interpolation", "why_tests_cant": "units times interpolation; fits hide the data they used", "anchors": ["PySeismoSoil/class_curves.py:Damping_Curve.get_HH_x_param", "PySeismoSoil/class_curves.py:Damping_Curve.__init__"]}
{"id": "C122", "title": "Curves constructed from parameters", "statement": "construct_curves returns one G/Gmax and one damping curve per layer, in order, at the strains asked for; curve_type selects one of them without changing it. For MKZ layers (s at most 1) it always succeeds, G/Gmax is the MKZ formula, lies in (0,1] and decreases, damping starts at 0 and stays within [0, 200/pi] percent; for HH layers it is refused with ValueError exactly if a G/Gmax exceeds 1 or a damping exceeds 100 percent.", "quantifier": "every list of parameter sets and increasing positive strains", "why_tests_cant": "analytic bounds for all parameters", "anchors": ["PySeismoSoil/class_parameters.py:Param_Multi_Layer.construct_curves", "PySeismoSoil/helper_generic.py:extract_from_curve_format"]}
{"id": "C123", "title": "The optimiser minimises the error of the parameters it returns", "statement": "The objective evaluated at a vector of powers is the mean absolute error between the data and the damping of exactly the parameter dictionary built from that vector; it is non-negative and zero only if the curves agree.", "quantifier": "every vector and every data set", "why_tests_cant": "a wrong order or unit in the objective still gives plausible fits", "anchors": ["PySeismoSoil/helper_hh_model.py:_damping_misfit", "PySeismoSoil/helper_mkz_model.py:damping_misfit", "PySeismoSoil/helper_generic.py:mean_absolute_error"]}
{"id": "C124", "title": "Wavelet baseline correction subtracts exactly the smooth part", "statement": "The correction of a record by wavelet decomposition keeps the times and the number of samples and returns the record minus the smooth row of the multiresolution analysis: for the filters of an orthogonal wavelet the rows of the analysis add up to the record at every level, however short the record is compared with the filters. The correction is linear, does not react to a constant offset, has zero mean, and commutes with circular shifts; filters of odd length are refused.", "quantifier": "for all records, levels and filter pairs (orthogonal filters for the reconstruction, zero-sum high-pass for offset and mean)", "why_tests_cant": "A test can decompose a few records with a few wavelets; wrap-around when the up-sampled filters are longer than the record and the convolution origins have to be right for every length, level and filter.", "anchors": ["PySeismoSoil/helper_gof_scores.py:490", "PySeismoSoil/helper_gof_scores.py:905", "PySeismoSoil/helper_gof_scores.py:918", "PySeismoSoil/helper_gof_scores.py:936", "PySeismoSoil/helper_gof_scores.py:957", "PySeismoSoil/helper_gof_scores.py:980"]}
{"id": "C125", "title": "A profile queried at depths is a profile of the same velocities", "statement": "query_Vs_at_depth with as_profile=True accepts exactly non-empty, strictly increasing, non-negative depths (a single positive number counts as one depth) and returns a valid profile down to the deepest of them whose velocity at every queried depth is that of the original, constant between queried depths; everything else raises TypeError or ValueError. Querying the result again at the same depths gives the same layers.", "quantifier": "every valid profile, every depth argument", "why_tests_cant": "all depth arrays including ties, interfaces and depths below the profile", "anchors": ["PySeismoSoil/class_Vs_profile.py:Vs_Profile.query_Vs_at_depth", "PySeismoSoil/class_Vs_profile.py:Vs_Profile.query_Vs_given_thk"]}
{"id": "C126", "title": "Processing methods of a motion return new, independent motions", "statement": "filtering, baseline correction, amplification and deconvolution of a Ground_Motion return a motion with the same times, leave the original and all existing arrays alone, and later operations on the new motion do not change the original; deconvolution undoes amplification; wrong arguments are rejected with TypeError or ValueError.", "quantifier": "every motion, filter design, profile, boundary and transfer function", "why_tests_cant": "aliasing and round trips for all motions", "anchors": ["PySeismoSoil/class_ground_motion.py:Ground_Motion.lowpass", "PySeismoSoil/class_ground_motion.py:Ground_Motion.highpass", "PySeismoSoil/class_ground_motion.py:Ground_Motion.bandpass", "PySeismoSoil/class_ground_motion.py:Ground_Motion.baseline_correct", "PySeismoSoil/class_ground_motion.py:Ground_Motion.amplify", "PySeismoSoil/class_ground_motion.py:Ground_Motion.deconvolve", "PySeismoSoil/class_ground_motion.py:Ground_Motion.amplify_by_tf"]}
{"id": "C127", "title": "Comparing two accelerograms gives the ratio of their spectra", "statement": "compare_two_accel aligns both records on common times (multiples of the smaller time step up to the longer end), so that no sample on that grid changes, and returns magnitude and angle of the ratio of their discrete Fourier coefficients: |c| and the angle of c for a record and its multiple by c; reciprocal amplification and negated phase if the two records are exchanged. Records with at least two samples each can be compared.", "quantifier": "every pair of records", "why_tests_cant": "for all records of different lengths and time steps", "anchors": ["PySeismoSoil/helper_site_response.py:compare_two_accel"]}
{"id": "C128", "title": "Sine smoothing is a weighted quadratic mean", "statement": "sine_smooth returns one non-negative value per frequency, scales with the spectrum, is monotone, and is the root of the weighted sum of squares under the window at every frequency; every spectrum with a positive frequency step and window is accepted.", "quantifier": "every spectrum and window width", "why_tests_cant": "index arithmetic at the ends for all lengths and widths", "anchors": ["PySeismoSoil/helper_signal_processing.py:sine_smooth"]}
{"id": "C129", "title": "The scores of a multiple of the measurement depend on the factor only", "statement": "With the filters, baseline correction, response spectra and smoothing of the package, the goodness-of-fit scores of a simulation which is c times the measurement are functions of c alone: 0 for the shape scores, 10 erf(c-1) or 10 erf(c^2-1) for the amplitude scores.", "quantifier": "every measurement, every positive factor, any filter design", "why_tests_cant": "whole signal chain for all records and factors", "anchors": ["PySeismoSoil/helper_gof_scores.py:d_1234", "PySeismoSoil/helper_gof_scores.py:d_567", "PySeismoSoil/helper_gof_scores.py:d_89"]}
{"id": "C130", "title": "Which simulations can be made", "statement": "A simulation object is made exactly for a profile, a motion, a known boundary condition, parameters that are both absent or of one class, and curves of the right class; it keeps what was given. Equivalent linear simulations need one set of curves per material of the profile, nonlinear ones one G and one damping parameter set per material; anything else is refused with the documented error.", "quantifier": "every combination of constructor arguments", "why_tests_cant": "decision table over all argument classes and sizes", "anchors": ["PySeismoSoil/class_simulation.py:Simulation.__init__", "PySeismoSoil/class_simulation.py:Equiv_Linear_Simulation.__init__", "PySeismoSoil/class_simulation.py:Nonlinear_Simulation.__init__", "PySeismoSoil/helper_simulations.py:check_layer_count"]}
{"id": "C131", "title": "Transfer functions and fundamental frequencies of a profile", "statement": "For every valid profile get_transfer_function and get_ampl_function return, in the order outcrop, borehole, incident, the ratios of the surface motion to the respective reference motion (and their moduli) at the multiples of the resolution up to fmax, finite and non-zero; get_f0_RO and get_f0_BH are the first multiple of 0.05 Hz, up to 30 Hz, at which the amplification stops rising. None of them depends on how the soil above the base is divided into layers.", "quantifier": "every valid profile, resolution and maximum frequency", "why_tests_cant": "all frequencies and profiles; physical meaning of the values", "anchors": ["PySeismoSoil/class_Vs_profile.py:Vs_Profile.get_ampl_function", "PySeismoSoil/class_Vs_profile.py:Vs_Profile.get_transfer_function", "PySeismoSoil/class_Vs_profile.py:Vs_Profile.get_f0_RO", "PySeismoSoil/class_Vs_profile.py:Vs_Profile.get_f0_BH", "PySeismoSoil/helper_site_response.py:linear_tf"]}
{"id": "C132", "title": "Curve containers and curve matrices", "statement": "A Multiple_GGmax_Damping_Curves is made from exactly two containers of equal numbers of curves or from one matrix with four columns per layer; the matrix of a pair of containers whose curves have equally many points gives these curves back and vice versa; curves with fewer points are resampled on the curve itself at geometrically spaced strains over the same range, so that every curve of the matrix lies on the curve given; files are read like matrices.", "quantifier": "every list of curves and every matrix", "why_tests_cant": "round trips and resampling for all curve lengths", "anchors": ["PySeismoSoil/class_curves.py:Multiple_GGmax_Damping_Curves.__init__", "PySeismoSoil/class_curves.py:Multiple_GGmax_Damping_Curves.get_MGC_MDC_objects", "PySeismoSoil/class_curves.py:Multiple_GGmax_Damping_Curves.get_curve_matrix", "PySeismoSoil/class_curves.py:Multiple_Damping_Curves.get_curve_matrix", "PySeismoSoil/class_curves.py:Multiple_GGmax_Curves.get_curve_matrix"]}
{"id": "C133", "title": "Parameter containers from arrays and files", "statement": "HH_Param_Multi_Layer and MKZ_Param_Multi_Layer made from a 2D array hold one layer per column, in order, with the parameters of the column in the documented order; other shapes and types are rejected; a file is read like the array it contains; a container saved with save_txt and loaded again has the same layers; files in the documented H4 layout give the parameters they contain.", "quantifier": "every array, list and file", "why_tests_cant": "round trips for all numbers of layers", "anchors": ["PySeismoSoil/class_parameters.py:HH_Param_Multi_Layer.__init__", "PySeismoSoil/class_parameters.py:MKZ_Param_Multi_Layer.__init__", "PySeismoSoil/class_parameters.py:Param_Multi_Layer.save_txt"]}
{"id": "C134", "title": "The genetic search stays within its bounds and returns the best it has met", "statement": "ga_optimization with the DEAP package returns one number per parameter, each within the bounds, and no individual of the first population or of any generation has a smaller loss; with the same random choices more generations never give a greater loss; it succeeds whenever the loss can be computed for parameters within the bounds.", "quantifier": "every sequence of random choices, every loss function, bounds, population and number of generations", "why_tests_cant": "random search; tests fix one seed", "anchors": ["PySeismoSoil/helper_site_response.py:ga_optimization"]}
{"id": "C135", "title": "Parameters of all damping curves", "statement": "get_all_HH_x_params and get_all_H4_x_params return one parameter set per curve, in the order of the curves, fitted to the curve without its small-strain damping, with the documented names and within the bounds, serially and in parallel alike; the file saved has the given name, or one made from the model and the site, and loading it gives the parameters returned; without a file name nothing is fitted, changed or written.", "quantifier": "every list of curves, every optimiser that respects its bounds, every schedule of the processes", "why_tests_cant": "random fits in parallel; files for all numbers of layers", "anchors": ["PySeismoSoil/class_curves.py:Multiple_Damping_Curves.get_all_HH_x_params", "PySeismoSoil/class_curves.py:Multiple_Damping_Curves.get_all_H4_x_params", "PySeismoSoil/helper_site_response.py:fit_all_damping_curves"]}
{"id": "C136", "title": "Tapering only reduces a record, symmetrically, and keeps its middle", "statement": "taper_Tukey multiplies every sample by a weight between 0 and 1: no sample grows, the first and last samples become zero, samples more than half the tapered share away from both ends are unchanged, the weights of a sample and of its mirror image agree, and tapering a sum of records gives the sum of the tapered records; one-column and two-column records give the same values, and the times of two-column records stay.", "quantifier": "every record of every length, every width of the taper", "why_tests_cant": "weights depend on length and width together; tests use one record", "anchors": ["PySeismoSoil/helper_signal_processing.py:taper_Tukey", "PySeismoSoil/helper_site_response.py:amplify_motion"]}
{"id": "C137", "title": "Root mean squares, Fourier spectrum and response spectra of a motion agree with its records", "statement": "rms_accel, rms_veloc and rms_displ are the root mean squares of accel, veloc and displ, never above the peak values and zero only for records of zeros; get_Fourier_spectrum gives the amplitude of k cycles over the record at the frequency of k cycles, alike for real and complex spectra, with the total energy of the record; get_response_spectra gives for periods in geometric progression from T_min to T_max the peaks of the exact oscillator responses, proportional to the motion.", "quantifier": "every motion given as acceleration, velocity or displacement, every record length, every damping below 1 and every choice of periods", "why_tests_cant": "an identity for all records and all transforms", "anchors": ["PySeismoSoil/class_ground_motion.py:Ground_Motion.__init__", "PySeismoSoil/class_ground_motion.py:Ground_Motion.get_Fourier_spectrum", "PySeismoSoil/class_ground_motion.py:Ground_Motion.get_response_spectra"]}
{"id": "C138", "title": "NaN and infinite elements are refused at construction", "statement": "Profiles, motions, G/Gmax and damping curves, curve matrices, spectra and score objects are made from finite numbers only: whatever the shape, unit or type of the array given, one NaN or infinity in it makes the construction raise, and finite arrays of the documented format are accepted; an array whose construction is refused is left as it was.", "quantifier": "every array of finite and non-finite elements, every unit and type of motion", "why_tests_cant": "placement of one bad element anywhere in an array of any shape", "anchors": ["PySeismoSoil/helper_generic.py:check_numbers_valid", "PySeismoSoil/helper_generic.py:check_two_column_format", "PySeismoSoil/helper_generic.py:check_Vs_profile_format", "PySeismoSoil/helper_generic.py:read_two_column_stuff", "PySeismoSoil/helper_generic.py:check_length_or_extend_to_array", "PySeismoSoil/class_ground_motion.py:Ground_Motion.__init__", "PySeismoSoil/class_curves.py:Multiple_GGmax_Damping_Curves.__init__", "PySeismoSoil/class_frequency_spectrum.py:Frequency_Spectrum.__init__"]}
{"id": "C139", "title": "Linear simulation of the motion on the surface", "statement": "Linear_Simulation.run(every_layer=False) works for every valid profile, both boundary conditions and every motion at increasing times. The motion on the surface has the times and the mean of the input and is the one that Ground_Motion.amplify gives (deconvolve with deconv=True); it depends linearly on the input and not on how the soil above the base is divided into layers; running with deconv reversed gives the input back if the division is finite, which it is for every odd number of samples. The transfer function of the results is labelled with the frequencies at which it was computed and is the one of the profile for the boundary condition chosen.", "quantifier": "every valid profile, boundary condition and motion", "why_tests_cant": "round trips, superposition and labels for all motions and profiles", "anchors": ["PySeismoSoil/class_simulation.py:Linear_Simulation.run", "PySeismoSoil/helper_site_response.py:linear_site_resp"]}
{"id": "C140", "title": "What a results object keeps", "statement": "Simulation_Results accepts exactly two motions, a profile, spectra or None, and arrays whose shapes fit the number of samples of the surface motion and the number of layers, and its attributes are the arguments; anything else raises TypeError or AssertionError.", "quantifier": "every combination of arguments", "why_tests_cant": "decision table over all argument classes and shapes", "anchors": ["PySeismoSoil/class_simulation_results.py:Simulation_Results.__init__"]}
{"id": "C141", "title": "The line plotted for a profile is its graph", "statement": "plot_Vs_profile draws a line of two points per layer which starts at the surface, never goes up, is vertical wherever it goes down, at the velocity the profile has at these depths, covers every depth down to its end, and ends at max_depth or below the profile.", "quantifier": "every valid profile and maximum depth", "why_tests_cant": "index arithmetic for all numbers of layers", "anchors": ["PySeismoSoil/helper_site_response.py:plot_Vs_profile", "PySeismoSoil/helper_site_response.py:_gen_profile_plot_array"]}
{"id": "C142", "title": "Depths and thicknesses in double precision", "statement": "In IEEE double precision (every operation rounded to the nearest double), the depths that thk2dep computes from non-negative thicknesses start at 0 and never decrease, dep2thk gives non-negative thicknesses that are 0 only where two depths are equal, and converting thicknesses to depths and back gives the thicknesses back.", "quantifier": "every list of thicknesses and depths, rounding included", "why_tests_cant": "rounding error over all inputs and profile lengths; tests compare with a tolerance", "anchors": ["PySeismoSoil/helper_site_response.py:thk2dep", "PySeismoSoil/helper_site_response.py:dep2thk"]}
{"id": "C143", "title": "Truncating a record at whole numbers of time steps in double precision", "statement": "Ground_Motion.truncate between two times that are a and b time steps after the start (time step and limits given as decimal numbers) returns the samples from a to b; later limits never give earlier samples.", "quantifier": "every time step, every pair of limits, rounding included", "why_tests_cant": "int() of a rounded quotient fails for particular decimal numbers only", "anchors": ["PySeismoSoil/class_ground_motion.py:Ground_Motion.truncate"]}
{"id": "C144", "title": "Number of layers of a re-sampled profile in double precision", "statement": "Vs_Profile.query_Vs_given_thk with a scalar thickness and no number of layers covers the profile with as many layers as needed and no more: the layers reach the bottom up to rounding, no layer starts below the bottom, and a profile whose depth is k thicknesses gets k layers.", "quantifier": "every profile depth and thickness, rounding included", "why_tests_cant": "ceil of a rounded quotient fails for particular decimal numbers only", "anchors": ["PySeismoSoil/class_Vs_profile.py:Vs_Profile.query_Vs_given_thk"]}
{"id": "C145", "title": "Frequency grid of the transfer functions in double precision", "statement": "linear_tf tabulates the multiples of the frequency resolution up to the maximum frequency: the last frequency does not exceed the maximum and is less than one step below it, and a maximum of k steps gives k frequencies ending at the maximum.", "quantifier": "every resolution and maximum frequency, rounding included", "why_tests_cant": "floor division of doubles fails for particular decimal numbers, among them the defaults", "anchors": ["PySeismoSoil/helper_site_response.py:linear_tf"]}
{"id": "C146", "title": "Scaling to a target peak in double precision", "statement": "scale_motion(target_PGA_in_g=p) gives a motion whose peak acceleration is p; scaling keeps the order of magnitudes and the signs of all samples.", "quantifier": "every record and every target, rounding included", "why_tests_cant": "all records; tests compare with a tolerance", "anchors": ["PySeismoSoil/class_ground_motion.py:Ground_Motion.scale_motion"]}
{"id": "C147", "title": "Arias intensity in double precision", "statement": "Also with rounding the Arias intensity starts at 0 and never decreases, and the normalised intensity never decreases, stays between 0 and 1 and ends at exactly 1.", "quantifier": "every record with energy, rounding included", "why_tests_cant": "all records of all lengths", "anchors": ["PySeismoSoil/class_ground_motion.py:Ground_Motion.__calc_Arias"]}
{"id": "C148", "title": "Depths of the smooth SVM profile in double precision", "statement": "The depths at which the smooth profile of the sediment velocity model is evaluated increase strictly from 0 in steps of the layer thickness and all lie above z1 minus the thickness of the additional layer.", "quantifier": "every z1 and thickness, rounding included", "why_tests_cant": "np.arange with a fractional step fails for particular numbers only", "anchors": ["PySeismoSoil/class_svm.py:SVM.__init__"]}
{"id": "C149", "title": "Reading and saving accelerations in cm/s/s in double precision", "statement": "A record read in cm/s/s and saved in cm/s/s contains the numbers that were read.", "quantifier": "every acceleration, rounding included", "why_tests_cant": "depends on the rounding of individual numbers", "anchors": ["PySeismoSoil/class_ground_motion.py:Ground_Motion.__init__", "PySeismoSoil/class_ground_motion.py:Ground_Motion.save_accel"]}
{"id": "C150", "title": "Interpolated curves stay in range in double precision", "statement": "Interpolating a G/Gmax or damping curve (np.interp) gives values between the least and the greatest value of the curve, so that a valid curve stays valid when it is resampled.", "quantifier": "every curve and every strain, rounding included", "why_tests_cant": "overshoot by rounding happens for particular numbers only", "anchors": ["PySeismoSoil/helper_generic.py:interpolate", "PySeismoSoil/class_curves.py:GGmax_Curve.__init__", "PySeismoSoil/class_curves.py:Curve.__init__"]}
{"id": "C151", "title": "Mean layer thickness and random layering of the sediment velocity model", "statement": "At every depth there is exactly one positive mean layer thickness satisfying Eq (7) of Shi & Asimaki (2018), and it grows with depth; get_randomized_profile finds it (retrying until the solver converges), and for all random numbers produces layers that fill the basin, each at least 2 m thick except the last, with mean and standard deviation of Eqs (7) and (8) at its depth; with use_Toros_layering the thicknesses are positive whole numbers with a mean growing with depth.", "quantifier": "every depth, every stream of random numbers", "why_tests_cant": "existence and uniqueness of the root at all depths; termination of a retry loop; all random streams", "anchors": ["PySeismoSoil/class_svm.py:SVM._thk_depth_func", "PySeismoSoil/class_svm.py:SVM._helper_get_rand_profile"]}
{"id": "C152", "title": "Spread and correlation of the random velocities of the sediment velocity model", "statement": "The velocity of a layer of a randomised profile is the base velocity times exp(Y sigma), where Y is, for independent standard normal draws, standard normal, and adjacent layers have the correlation rho_1L of Toro (1995) for the site class and depth; sigma is positive.", "quantifier": "every base profile, layering and stream of random numbers", "why_tests_cant": "a statement about the distribution over all random streams, and about all velocities", "anchors": ["PySeismoSoil/class_svm.py:SVM._helper_get_rand_profile"]}
{"id": "C153", "title": "Parameters and curves returned by fit_MKZ", "statement": "fit_MKZ returns for each material (four columns) the parameters gamma_ref, 0, s, beta and the MKZ curve of these parameters at 109 strains from 0.0001 % to 10 %, strictly decreasing between 1 and 0, with zero damping; other numbers of columns are rejected; data on an MKZ curve determine its parameters.", "quantifier": "every curve matrix and every curve fit within the bounds", "why_tests_cant": "all parameters; identifiability cannot be seen from single fits", "anchors": ["PySeismoSoil/helper_mkz_model.py:fit_MKZ", "PySeismoSoil/helper_mkz_model.py:tau_MKZ"]}
{"id": "C154", "title": "Numbers given as integers are treated like the same real numbers", "statement": "A motion, curve, profile or thickness array given as an integer numpy array leads to the same result as the same numbers given as reals: Ground_Motion and save_accel convert units exactly, _unit_convert, Stress_Curve and Vs_Profile accept it, and vertical stresses are those of the real thicknesses.", "quantifier": "every integer array, every unit", "why_tests_cant": "depends on the element type and on the values; tests use real arrays or values that survive", "anchors": ["PySeismoSoil/class_ground_motion.py:Ground_Motion.__init__", "PySeismoSoil/class_ground_motion.py:Ground_Motion.save_accel", "PySeismoSoil/class_ground_motion.py:Ground_Motion._unit_convert", "PySeismoSoil/class_curves.py:Stress_Curve.__init__", "PySeismoSoil/class_Vs_profile.py:Vs_Profile.__init__", "PySeismoSoil/helper_hh_calibration.py:_calc_vertical_stress"]}
{"id": "C155", "title": "Motion plot shows the recorded motion and its peak", "statement": "Ground_Motion.plot draws acceleration, velocity and displacement of the motion in the requested unit and writes the peak acceleration (first sample of largest magnitude) with its unit beside it; it does so for every motion and every documented unit.", "quantifier": "every motion of two or more samples, every unit, figure and axes", "why_tests_cant": "depends on where the peak is relative to the end of the record and on the length of the record; tests draw one motion and look at nothing", "anchors": ["PySeismoSoil/class_ground_motion.py:Ground_Motion.plot", "PySeismoSoil/helper_site_response.py:plot_motion"]}
{"id": "C156", "title": "Figures and axes that are passed in are used", "statement": "A drawing method that is given a figure and/or axes draws on them and returns them, the axes returned belong to the figure returned, one line is added per curve in the order of the curves, and no other axes change.", "quantifier": "every canvas, every combination of figure and axes, every list of curves", "why_tests_cant": "plots are side effects that the tests do not look at; the combinations of figure and axes are not tried", "anchors": ["PySeismoSoil/helper_generic.py:_process_fig_ax_objects", "PySeismoSoil/class_curves.py:Curve.plot", "PySeismoSoil/class_curves.py:Multiple_Curves.plot", "PySeismoSoil/class_frequency_spectrum.py:Frequency_Spectrum.plot", "PySeismoSoil/helper_site_response.py:plot_motion"]}
{"id": "C157", "title": "Keyword arguments are handed on", "statement": "Keyword arguments that a method documents as handed on to another function reach that function unchanged, and none of the arguments of that function is rejected.", "quantifier": "every dictionary of keyword arguments", "why_tests_cant": "needs all combinations of arguments; tests call the methods without extra arguments", "anchors": ["PySeismoSoil/class_curves.py:Multiple_Curves.plot", "PySeismoSoil/class_Vs_profile.py:Vs_Profile.plot", "PySeismoSoil/class_svm.py:SVM.plot", "PySeismoSoil/class_parameters.py:Parameter.plot_curves", "PySeismoSoil/class_site_effect_adjustment.py:Site_Effect_Adjustment.run", "PySeismoSoil/class_frequency_spectrum.py:Frequency_Spectrum.get_smoothed"]}
{"id": "C158", "title": "Only documented exceptions are raised", "statement": "Constructors and query functions reject bad arguments with the exceptions that their docstrings name (ValueError, TypeError, KeyError), with the right one of them, and raise no other exception.", "quantifier": "every argument, valid or not", "why_tests_cant": "the kind of exception depends on which check fires first over all malformed arguments; tests try a few malformed arguments", "anchors": ["PySeismoSoil/class_Vs_profile.py:Vs_Profile.__init__", "PySeismoSoil/class_Vs_profile.py:Vs_Profile.query_Vs_at_depth", "PySeismoSoil/class_curves.py:Curve.__init__", "PySeismoSoil/class_curves.py:Multiple_GGmax_Damping_Curves.__init__", "PySeismoSoil/class_parameters.py:Parameter.__init__", "PySeismoSoil/class_simulation.py:Site_Response_Simulation.__init__", "PySeismoSoil/class_simulation_results.py:Simulation_Results.__init__", "PySeismoSoil/class_ground_motion.py:Ground_Motion.__init__", "PySeismoSoil/class_site_factors.py:Site_Factors.__init__", "PySeismoSoil/class_svm.py:SVM.get_discretized_profile", "PySeismoSoil/helper_generic.py:read_two_column_stuff", "PySeismoSoil/helper_signal_processing.py:log_smooth", "PySeismoSoil/class_gof_scores.py:GOF_Scores.__str__"]}
{"id": "C159", "title": "Figures of simulation results show the results", "statement": "Simulation_Results.plot draws the input and the surface motion at their times, the transfer functions at their frequencies, and the profiles of the maxima at their depths, converted to the units of the labels; nothing in range is cut off and the smaller motion is not hidden.", "quantifier": "every result object", "why_tests_cant": "what is drawn is not looked at by tests; depends on the frequencies of the two transfer functions and on the times of the records", "anchors": ["PySeismoSoil/class_simulation_results.py:Simulation_Results.plot", "PySeismoSoil/helper_site_response.py:_plot_site_amp"]}
{"id": "C160", "title": "Everything drawn in a figure of velocity profiles lies within its axes", "statement": "In the figures of Vs_Profile.plot, of the queries with as_profile or show_fig and of SVM profiles, the curves of all profiles drawn lie within the limits of the velocity and depth axes, and the profile drawn is the profile of the object.", "quantifier": "every profile, queried depths or thicknesses, additional profile", "why_tests_cant": "figures are not looked at by tests; depends on which of the profiles drawn on the same axes is deeper or faster", "anchors": ["PySeismoSoil/helper_site_response.py:plot_Vs_profile", "PySeismoSoil/class_Vs_profile.py:Vs_Profile.query_Vs_at_depth", "PySeismoSoil/class_Vs_profile.py:Vs_Profile._plot_queried_Vs", "PySeismoSoil/class_svm.py:SVM._plot_additional_profile"]}
{"id": "C161", "title": "The figure of damping-curve fits shows the given curves and the fits", "statement": "The fits of all layers use the settings given by the user under their names; the figure has one panel for each layer in reading order, with the given damping curve and the curve of the fitted parameters over the same range of strains.", "quantifier": "every list of damping curves, every setting, parallel or serial", "why_tests_cant": "the arrays change in place during the serial fit; tests do not look at figures", "anchors": ["PySeismoSoil/helper_site_response.py:fit_all_damping_curves", "PySeismoSoil/helper_site_response.py:_fit_single_layer_loop", "PySeismoSoil/helper_site_response.py:_plot_damping_curve_fit", "PySeismoSoil/helper_hh_model.py:fit_HH_x_single_layer", "PySeismoSoil/helper_mkz_model.py:fit_MKZ"]}
{"id": "C162", "title": "Text files hold the numbers to the digits of their format", "statement": "A table saved as text (parameters, results, re-discretised profile, files for the compiled simulation) has the shape of the table; each number is the nearest decimal number with the digits of the format, keeps sign and order, and numbers written with numpy's default format come back as the same doubles.", "quantifier": "every table of numbers", "why_tests_cant": "rounding depends on all digits of every number; tests compare a few files with tolerances", "anchors": ["PySeismoSoil/class_parameters.py:Param_Multi_Layer.save_txt", "PySeismoSoil/class_simulation_results.py:Simulation_Results.to_txt", "PySeismoSoil/class_simulation.py:Nonlinear_Simulation.run", "PySeismoSoil/helper_hh_calibration.py:hh_param_from_profile", "PySeismoSoil/helper_site_response.py:fit_all_damping_curves"]}
{"id": "C163", "title": "A saved accelerogram can be read again", "statement": "A file written by Ground_Motion.save_accel and read with Ground_Motion gives the samples, the times and the time step of the motion to the digits written; different samples have different times.", "quantifier": "every motion and unit", "why_tests_cant": "fails only for records that are long compared with their time step, or that start late", "anchors": ["PySeismoSoil/class_ground_motion.py:Ground_Motion.save_accel", "PySeismoSoil/helper_generic.py:read_two_column_stuff", "PySeismoSoil/class_ground_motion.py:Ground_Motion.__init__"]}
{"id": "C164", "title": "A saved velocity profile can be read again", "statement": "A file written by Vs_Profile.to_txt with its documented formats and read with Vs_Profile gives the layers of the profile to the decimals written.", "quantifier": "every accepted profile", "why_tests_cant": "fails only for layers thinner than half of the last decimal; whether the file is accepted depends on every number", "anchors": ["PySeismoSoil/class_Vs_profile.py:Vs_Profile.to_txt", "PySeismoSoil/helper_generic.py:check_Vs_profile_format", "PySeismoSoil/class_Vs_profile.py:Vs_Profile.__init__"]}
{"id": "C165", "title": "Printing an object shows its numbers", "statement": "print() of a velocity profile shows every layer in order with its thickness, velocity, damping in percent, density and material and the Vs30; print() of a ground motion shows its number of samples, time step, peaks and duration; print() of a frequency spectrum shows its interval, number of points and range; each number is the nearest one that the number of digits allows, and nothing that is there is shown as 0.", "quantifier": "every profile, motion and spectrum", "why_tests_cant": "depends on the sizes of the numbers; tests do not look at the text", "anchors": ["PySeismoSoil/class_Vs_profile.py:Vs_Profile.__repr__", "PySeismoSoil/class_ground_motion.py:Ground_Motion.__repr__", "PySeismoSoil/class_frequency_spectrum.py:Frequency_Spectrum.__repr__"]}
{"id": "C166", "title": "The figure of interpolated site factors shows the surrounding tabulated curves and the result", "statement": "With show_interp_plots the figure of a query has nine lines over the returned periods or frequencies: the tabulated curves of the eight surrounding grid points, each labelled with its own grid point, and the curve that is returned; the title names the query point.", "quantifier": "every Vs30, z1 and PGA in range, every kind of factor and method", "why_tests_cant": "all cells of the table; figures are not looked at by tests", "anchors": ["PySeismoSoil/class_site_factors.py:Site_Factors._plot_interp", "PySeismoSoil/class_site_factors.py:Site_Factors.get_amplification"]}
{"id": "C167", "title": "The figure of linear_tf shows the transfer functions", "statement": "The figure of linear_tf has twelve panels, which show for outcrop, incident and borehole motion the amplification and the phase of the transfer functions that are returned, over linear and logarithmic frequency; amplification and phase shown together give the transfer function, phases have no jump above half a turn; the fundamental frequencies written into the panels are those returned.", "quantifier": "every valid profile, every resolution and maximum frequency", "why_tests_cant": "all profiles; figures are not looked at by tests", "anchors": ["PySeismoSoil/helper_site_response.py:linear_tf", "PySeismoSoil/helper_site_response.py:find_f0"]}
{"id": "C168", "title": "A text file is read like the array of its numbers", "statement": "Ground_Motion, Frequency_Spectrum, Vs_Profile and Multiple_GGmax_Damping_Curves made from a file are those made from the array of the numbers in the file; header lines can be skipped with the keyword arguments for numpy.genfromtxt, and a header line that is not skipped is refused.", "quantifier": "every file: any header lines, any number of rows and columns", "why_tests_cant": "needs files of all shapes: genfromtxt drops dimensions of length one and turns text into NaN; tests read a few well-formed files", "anchors": ["PySeismoSoil/class_ground_motion.py:Ground_Motion.__init__", "PySeismoSoil/class_Vs_profile.py:Vs_Profile.__init__", "PySeismoSoil/class_frequency_spectrum.py:Frequency_Spectrum.__init__", "PySeismoSoil/class_curves.py:Multiple_GGmax_Damping_Curves.__init__", "PySeismoSoil/helper_generic.py:read_two_column_stuff"]}
{"id": "C169", "title": "Cut-off frequencies of the filters are in Hz and mark half power", "statement": "For a motion with a given time step the low-pass, high-pass, band-pass and band-stop filters with cut-off frequencies in Hz leave half of the power of a steady vibration at each cut-off frequency, more in the pass band and less in the stop band.", "quantifier": "every record, time step, order, cut-off frequency below the Nyquist frequency and frequency of vibration", "why_tests_cant": "all frequencies and time steps: a wrong scale factor moves the band; tests filter one or two signals", "anchors": ["PySeismoSoil/helper_signal_processing.py:_filter_kernel", "PySeismoSoil/helper_signal_processing.py:lowpass", "PySeismoSoil/helper_signal_processing.py:highpass", "PySeismoSoil/helper_signal_processing.py:bandpass", "PySeismoSoil/helper_signal_processing.py:bandstop"]}
{"id": "C170", "title": "The figure of Ground_Motion.compare shows the two motions on their common times", "statement": "compare draws the accelerations of the two motions, after they are brought to the same times, over those times, the input and the output labelled as the user stated with this_is_input; the amplification shown is that of the output over the input, and exchanging the two motions together with the flag gives the same figure.", "quantifier": "every pair of motions, both values of the flag", "why_tests_cant": "depends on which motion is longer or more finely sampled; figures are not looked at by tests", "anchors": ["PySeismoSoil/class_ground_motion.py:Ground_Motion.compare", "PySeismoSoil/helper_site_response.py:compare_two_accel", "PySeismoSoil/helper_site_response.py:_plot_site_amp"]}
{"id": "C171", "title": "The figure of Ground_Motion.truncate shows the record before and after", "statement": "With show_fig the result of truncate is the same as without it; the figure shows acceleration, velocity and displacement of the original record and of the truncated one, each at its own times, so that the truncated part lies on the part of the original it was taken from.", "quantifier": "every motion, limit and kind of limit", "why_tests_cant": "figures are not looked at by tests; whether the lines coincide depends on the whole record before the limit", "anchors": ["PySeismoSoil/class_ground_motion.py:Ground_Motion.truncate"]}
{"id": "C172", "title": "The figures of the calibration of modulus curves belong to the parameters returned", "statement": "The figure of each layer of produce_HH_G_param shows the HH and MKZ curves of the parameters of that layer (stress-strain and normalised modulus) over the strains of the data; the figure of fit_MKZ shows the given data and the curve of the fitted parameters of the same material.", "quantifier": "every layer, every strain, every list of curves", "why_tests_cant": "all strains and parameters; figures are not looked at by tests", "anchors": ["PySeismoSoil/helper_hh_calibration.py:produce_HH_G_param", "PySeismoSoil/helper_mkz_model.py:fit_MKZ"]}
{"id": "C173", "title": "The printed goodness-of-fit scores are the scores computed", "statement": "calc_scores(verbose=True) prints, for every score asked for and no other, the name of the score with its value to three decimals in the order of the scores, followed by the average; nothing is printed without verbose. print(object) shows the ten scores last computed and their average over those computed. The values stored and printed are those computed.", "quantifier": "every selection of scores, every record and every value of the scores", "why_tests_cant": "all values of the scores; printed text is not checked by tests and rounding to single precision shows for few values only", "anchors": ["PySeismoSoil/class_gof_scores.py:GOF_Scores.calc_scores", "PySeismoSoil/class_gof_scores.py:GOF_Scores.__str__"]}
{"id": "C174", "title": "The figures of the goodness-of-fit scores show what is scored", "statement": "With show_fig=True each score function returns the same scores as without. The figures show the curves the scores are computed from, measurement and simulation under their own labels and each at its own times (or periods, frequencies), inside the axes; the titles contain the scores; for the spectra the area under the larger line is shaded exactly over the periods and frequencies scored.", "quantifier": "every pair of records, every frequency range, every signal processing", "why_tests_cant": "all records; figures are not looked at by tests", "anchors": ["PySeismoSoil/helper_gof_scores.py:d_1234", "PySeismoSoil/helper_gof_scores.py:d_567", "PySeismoSoil/helper_gof_scores.py:d_89", "PySeismoSoil/helper_gof_scores.py:d_10"]}
{"id": "C175", "title": "Warnings about a velocity profile point at the values they name", "statement": "Vs_Profile warns about a density below 1000 kg/m3 (1 g/cm3), a damping ratio above 100 %, and a surface layer thinner than 1 m exactly when the profile has one, in whatever unit the values are given; a profile that is refused and one without such values give no warning.", "quantifier": "every array of two or five columns, every unit", "why_tests_cant": "depends on every value and on the unit; tests do not look at the console", "anchors": ["PySeismoSoil/class_Vs_profile.py:Vs_Profile.__init__"]}
{"id": "C176", "title": "The messages of a simulation say what happened", "statement": "With verbose=False a simulation or a batch prints nothing of its own; with verbose=True the message that the simulation is done appears exactly when it succeeded, the place where results are saved is named exactly when they are saved, and a batch tells which simulations failed.", "quantifier": "every simulation, outcome of each step, combination of options", "why_tests_cant": "needs failures at each step of a run and all combinations of options; console output is not tested", "anchors": ["PySeismoSoil/class_simulation.py:Linear_Simulation.run", "PySeismoSoil/class_simulation.py:Equiv_Linear_Simulation.run", "PySeismoSoil/class_simulation.py:Nonlinear_Simulation.run", "PySeismoSoil/class_simulation_results.py:Simulation_Results.to_txt", "PySeismoSoil/class_batch_simulation.py:Batch_Simulation.run"]}
{"id": "C177", "title": "The report of the equivalent-linear iteration describes the passes made", "statement": "With verbose=True the iteration prints one line for each pass, with the number of the pass and the largest relative changes of modulus and damping in percent over the layers of soil; convergence is announced exactly when the changes are within the tolerance; with verbose=False nothing is printed.", "quantifier": "every profile, set of curves, tolerance and number of passes", "why_tests_cant": "all states of the iteration; printed text is not checked by tests", "anchors": ["PySeismoSoil/helper_simulations.py:equiv_linear"]}
{"id": "C178", "title": "The report of the HH calibration shows the parameters returned", "statement": "With verbose=True produce_HH_G_param prints for every layer, under its number, the parameters mu, a, gamma_t and d (and with curves the MKZ parameters gamma_ref, s and beta) of the column returned for this layer, rounded to the digits of the format; with verbose=False nothing is printed.", "quantifier": "every profile and list of curves", "why_tests_cant": "all layers and values; printed text is not checked by tests", "anchors": ["PySeismoSoil/helper_hh_calibration.py:produce_HH_G_param", "PySeismoSoil/helper_mkz_model.py:fit_MKZ"]}
{"id": "C179", "title": "Other warnings appear once and when their condition holds", "statement": "The messages about an extended profile in calc_VsZ, about the unit of densities, about Vs30 outside of the range of the SVM, about missing stress functions, about frequencies of site factors and of transfer functions, and the progress reports of the SVM appear exactly when their condition holds, once, with the value concerned, and not with verbose=False.", "quantifier": "every input of these functions", "why_tests_cant": "conditions on all values; printed text is not checked by tests", "anchors": ["PySeismoSoil/helper_site_response.py:calc_VsZ", "PySeismoSoil/helper_hh_calibration.py:_calc_vertical_stress", "PySeismoSoil/class_svm.py:SVM.__init__", "PySeismoSoil/class_svm.py:SVM.get_randomized_profile", "PySeismoSoil/class_parameters.py:Parameter.get_GGmax", "PySeismoSoil/class_site_effect_adjustment.py:Site_Effect_Adjustment.run", "PySeismoSoil/helper_signal_processing.py:calc_transfer_function"]}
{"id": "C180", "title": "Default names of results are different and in order of time", "statement": "Where no directory or name is given, results, batches and calibrations are saved under a name made from the time; such names are valid file names, sort by time, and are different for different runs, so that no run overwrites the files of another.", "quantifier": "every pair of points of time", "why_tests_cant": "runs within one second and around changes of digits; tests give their own directories", "anchors": ["PySeismoSoil/helper_generic.py:get_current_time", "PySeismoSoil/class_simulation_results.py:Simulation_Results.__init__", "PySeismoSoil/class_batch_simulation.py:Batch_Simulation.run", "PySeismoSoil/helper_hh_calibration.py:hh_param_from_profile"]}
{"id": "C181", "title": "VsZ and Vs30 in double precision", "statement": "calc_VsZ and calc_Vs30, as computed in IEEE doubles (slownesses, running depths, remaining thickness, sum and quotient each rounded), give the depth divided by the travel time up to a stated relative error that grows with the number of layers, the ratio of the largest to the smallest velocity and the ratio of profile thickness to Z; in particular the result lies between the smallest and the largest velocity, and for a homogeneous soil it is its velocity.", "quantifier": "for all profiles with thicknesses that are doubles (0 or at least 2^-500) and velocities between 2^-400 and 2^400, all depths Z that are doubles of at least 2^-500", "why_tests_cant": "Site classes are decided by comparing Vs30 with 180 and 360 m/s; tests compare with a tolerance and cannot bound the rounding error over all profiles.", "anchors": ["PySeismoSoil/helper_site_response.py:837", "PySeismoSoil/helper_site_response.py:907"]}
{"id": "C182", "title": "Velocities at depths and basin depths in double precision", "statement": "query_Vs_at_depth, as computed in IEEE doubles, returns the velocity of the layer which contains the depth, and at an interface that of the layer below it; calc_basin_depth finds the first layer that reaches the velocity of the bedrock without error and returns the depth of its top up to a relative error of 2^-52 per layer.", "quantifier": "for all profiles with thicknesses that are doubles and not negative (up to 2^52 layers), all depths that are not negative and all bedrock velocities", "why_tests_cant": "Whether accumulated depths land on the right side of a queried depth depends on the last bit of sums of arbitrary thicknesses.", "anchors": ["PySeismoSoil/helper_site_response.py:125", "PySeismoSoil/helper_site_response.py:1042"]}
{"id": "C183", "title": "Integration and differentiation of records in double precision", "statement": "num_int and num_diff, as computed in IEEE doubles: every velocity is the time step times the sum of the accelerations so far up to a stated error; accelerations that are never negative give velocities and displacements that never decrease; reversing the sign of a record reverses its velocities and displacements exactly; differentiating the velocity gives the accelerations back.", "quantifier": "for all records of at least two samples whose accelerations are doubles (up to 2^51 samples) and all time columns", "why_tests_cant": "Errors accumulate over the samples of a record; tests use short records and tolerances.", "anchors": ["PySeismoSoil/helper_site_response.py:375", "PySeismoSoil/helper_site_response.py:408"]}
{"id": "C184", "title": "Damping of a sampled curve approaches the hysteretic damping of the curve", "statement": "Damping computed from a stress-strain curve at some strains (calc_damping_from_stress_strain, get_damping of the MKZ parameters) is close to the hysteretic damping of the curve itself: the difference at a strain is at most 2/pi times the largest distance of the strains up to there divided by that strain; for concave curves, such as MKZ with s at most 1, it is never larger than the damping of the curve and grows when strains are added; the damping at a strain does not depend on which other strains are asked for.", "quantifier": "All non-decreasing (or concave) backbone curves, all increasing lists of positive strains, all MKZ parameters with 0 < s <= 1.", "why_tests_cant": "Tests compare with stored values on one strain grid; the error for all curves and grids is a statement about integrals.", "anchors": ["PySeismoSoil/helper_site_response.py L2210-2250", "PySeismoSoil/class_parameters.py L173-198"]}
{"id": "C185", "title": "Records sampled from a smooth motion: integrals, derivative and Arias intensity", "statement": "If a record consists of samples of a function of time, velocity and displacement (num_int), acceleration (num_diff) and Arias intensity computed from it differ from the integrals and the derivative of the function by at most a multiple of the time step, at every sample.", "quantifier": "All functions with bounded rate of change, all time steps and numbers of samples.", "why_tests_cant": "Tests use a few records; the order of accuracy for all motions is a statement about integrals.", "anchors": ["PySeismoSoil/helper_site_response.py L375-432", "PySeismoSoil/class_ground_motion.py L477-520"]}
{"id": "C186", "title": "Response spectra of a sampled motion are those of the motion itself, up to the time step", "statement": "If a record consists of samples of a function of time, the spectral displacement, velocity and acceleration returned for a period are the largest response of the damped oscillator to the function itself during the record, up to a multiple of the time step between the samples in use, and converge to it when the sampling is refined; records whose accelerations differ by little have spectra that differ by little, and no (pseudo-)velocity exceeds peak acceleration times duration.", "quantifier": "All ground accelerations with bounded rate of change, all sampling intervals, periods and damping ratios below 1; all pairs of records.", "why_tests_cant": "Tests compare spectra of a few records with stored values; convergence and stability are statements about all motions and all refinements.", "anchors": ["PySeismoSoil/helper_site_response.py L485-740"]}
{"id": "C187", "title": "The fundamental frequency of a uniform soil deposit is Vs / (4 H)", "statement": "For soil of one material (in one layer or divided into several) on rock, the transfer functions are the textbook closed forms, and the fundamental frequencies returned by get_f0_RO and get_f0_BH are Vs / (4 H), up to the 0.05 Hz step of the table and small corrections due to damping and radiation into the rock.", "quantifier": "All thicknesses, velocities, densities and damping ratios up to 25 %, fundamental frequencies between 1/8 and 26 Hz, any subdivision of the deposit.", "why_tests_cant": "Tests evaluate a few profiles with stored results; that the first local maximum of the table is the physical resonance, for every deposit, needs an analysis of the shape of the amplification curve.", "anchors": ["PySeismoSoil/class_Vs_profile.py L351-373", "PySeismoSoil/helper_site_response.py L435-482", "PySeismoSoil/helper_site_response.py L1221-1350"]}
{"id": "C188", "title": "Amplifying a motion is time invariant, keeps harmonic motions harmonic and limits the energy", "statement": "amplify_motion with a given transfer function commutes with cyclic shifts of the accelerations; a harmonic motion at one of the discrete frequencies is turned into a harmonic motion of the same frequency whose complex amplitude is multiplied by the transfer function; and the energy (sum of squares) of the response is at most the square of the largest amplification times that of the motion, likewise for linear site response.", "quantifier": "All motions, transfer functions, shifts, harmonic frequencies and amplitudes, soil profiles and boundaries.", "why_tests_cant": "Tests amplify one or two records; time invariance and the energy bound are statements about all records and transfer functions.", "anchors": ["PySeismoSoil/helper_site_response.py L1463-1660", "PySeismoSoil/helper_site_response.py L1663-1757"]}
{"id": "C189", "title": "The Fourier spectrum of a sampled motion approximates the Fourier integral of the motion", "statement": "The spectrum returned for samples of a motion is, row by row, the Fourier integral of the motion over the record, up to an error proportional to the time step, so that it does not depend on how finely the motion is sampled; the transfer function between two sampled motions is the quotient of their Fourier integrals.", "quantifier": "All bounded motions with bounded rate of change, all time steps, record lengths and frequencies below the Nyquist frequency.", "why_tests_cant": "Tests compare with the FFT of the same samples; whether the values mean what a Fourier amplitude means needs the limit of fine sampling.", "anchors": ["PySeismoSoil/helper_signal_processing.py L503-581", "PySeismoSoil/helper_signal_processing.py L626-715"]}
{"id": "C190", "title": "The strain of a layer is the mean of its strain, close to the strain at mid-depth", "statement": "In a harmonic motion of the column, the strain the linear solver reports for a layer (difference of the displacements of consecutive interfaces over the thickness) is the average over the layer of the strain of the exact solution of the wave equation, equals the mid-depth strain times sin(kh/2)/(kh/2), and is within 2/9 (pi h / wave length)^2 of the mid-depth strain in relative terms when the layer is thinner than wave length / pi.", "quantifier": "All layer stacks with damping, frequencies, layers, boundary types and solutions of the wave equation.", "why_tests_cant": "Tests check array shapes and one record; how the reported number relates to the strain inside the layer is a statement about solutions of a differential equation.", "anchors": ["PySeismoSoil/helper_simulations.py L752-758", "PySeismoSoil/helper_simulations.py L640-744"]}
{"id": "C191", "title": "Amplification relative to outcrop does not exceed amplification relative to the motion within the ground", "statement": "In every harmonic motion of the layered column the power the waves carry into it is the power the layers dissipate. Hence, at every frequency, the amplitude of the transfer function relative to rock outcrop is at most that of the transfer function relative to the motion at the base (borehole).", "quantifier": "All layer stacks with positive damping, all frequencies.", "why_tests_cant": "An inequality over all profiles and frequencies that follows from energy conservation; tests evaluate single profiles.", "anchors": ["PySeismoSoil/helper_site_response.py L1285-1340"]}
{"id": "C192", "title": "Results for a profile do not depend on the units of length, time and density", "statement": "Changing the units in which thicknesses, velocities, frequencies and densities are given leaves the transfer functions of linear_tf and of the every-layer solver unchanged, scales their frequency axis, and scales VsZ and basin depths by the factors of velocity and length.", "quantifier": "All profiles, all positive unit factors, frequencies, depths and options.", "why_tests_cant": "Dimensional consistency of formulas for all inputs; tests use SI units only.", "anchors": ["PySeismoSoil/helper_site_response.py L1285-1340", "PySeismoSoil/helper_simulations.py L660-704", "PySeismoSoil/helper_site_response.py L837-904", "PySeismoSoil/helper_site_response.py L1042-1076"]}
{"id": "C193", "title": "Silence before or after a record does not change its intensity measures", "statement": "Adding samples of zero before a record leaves peak acceleration, velocity and displacement, Arias intensity, significant duration and response spectra unchanged; adding them after it leaves peak acceleration and velocity, Arias intensity and significant duration unchanged and does not lower response spectra.", "quantifier": "All evenly sampled records, all numbers of added samples, all oscillators.", "why_tests_cant": "Holds or fails depending on the end samples of arbitrary records; tests use one record.", "anchors": ["PySeismoSoil/helper_site_response.py L375-405", "PySeismoSoil/class_ground_motion.py L438-530", "PySeismoSoil/helper_site_response.py L485-740"]}
{"id": "C194", "title": "Transfer functions tend to those of a rigid body at low and to zero at high frequencies", "statement": "For every damped profile, the transfer functions relative to outcrop and incident motion tend to zero as frequency grows, no slower than the decay of waves in the top layer allows; at low frequencies the three transfer functions tend to 1, 2 and 1.", "quantifier": "All profiles of damped layers, all frequencies.", "why_tests_cant": "A statement about a limit; tests sample a finite frequency range.", "anchors": ["PySeismoSoil/helper_site_response.py L1285-1340"]}
{"id": "C195", "title": "Filters are stable", "statement": "With poles inside the unit circle, filtering is convolution with an impulse response that decays geometrically: the filtered record is bounded by a factor times the record whatever its length, samples in the past are forgotten, and the answer to a vibration tends to that vibration times the response of the filter.", "quantifier": "All cascades of stable sections, all records, all cut-off frequencies and filter types.", "why_tests_cant": "Concerns records of every length; tests filter one record.", "anchors": ["PySeismoSoil/helper_signal_processing.py L14-332"]}
{"id": "C196", "title": "Response spectra tend to peak acceleration at short periods and to peak velocity and displacement at long periods", "statement": "As the period tends to zero, spectral acceleration and pseudo-acceleration tend to the peak ground acceleration of the motion; as the period grows, spectral velocity and spectral displacement tend to the peak ground velocity and the peak ground displacement.", "quantifier": "All records, time steps and damping ratios between 0 and 1.", "why_tests_cant": "Tests evaluate spectra at periods between 0.01 and 10 s; a limit is a statement about arbitrarily short and long periods, and whether the first sample or the rectangle rule of the integration shifts it depends on the record.", "anchors": ["PySeismoSoil/helper_site_response.py L485-740", "PySeismoSoil/helper_site_response.py L375-405"]}
{"id": "C197", "title": "For weak motions the equivalent-linear solver agrees with the linear solver", "statement": "Take any input motion and weaken it by multiplying its accelerations by a factor. As the factor goes to zero, the accelerations, velocities, displacements, strains and stresses returned by the equivalent-linear solver, divided by the factor, its transfer function and the damping ratios of the profile it returns tend to those the linear solver gives for the original motion, whatever tolerance, limit on the iterations and verbosity. If moreover the tables of G/Gmax begin with 1, there is a level below which both solvers return exactly the same results.", "quantifier": "every valid profile with a half space, every motion of at least two samples, every set of curve tables covering the materials whose strains begin above zero, both boundary conditions, all tolerances, strain ratios, iteration limits >= 1, verbose or not; all sufficiently small factors", "why_tests_cant": "A test can compare the two solvers for one weak motion and some tolerance; that the difference vanishes in the limit, for every profile and motion and through all passes of the iteration with its data-dependent stopping rule, is a statement about limits.", "anchors": ["PySeismoSoil/helper_simulations.py:224-472", "PySeismoSoil/helper_simulations.py:66-221"]}
{"id": "C198", "title": "Transfer functions depend continuously on the profile, and thin layers have little effect", "statement": "If the thicknesses, shear-wave velocities, damping ratios and densities of a profile approach those of another profile with as many layers, and the frequency approaches a positive frequency, the three transfer functions (to the surface from rock outcrop, from the incident wave and from the base) approach those of the other profile. A layer inserted anywhere above the half space, of whatever material, has an effect on the transfer functions that vanishes with its thickness.", "quantifier": "every profile of at least one layer with positive velocity, density and damping and non-negative thickness; every way of approaching it (any filter), every positive frequency; every position and material of the inserted layer", "why_tests_cant": "Sampling a few perturbed profiles cannot exclude jumps, e.g. from the branch of the complex square root or a vanishing denominator, at parameters not sampled.", "anchors": ["PySeismoSoil/helper_site_response.py:1221-1340"]}
{"id": "C199", "title": "Stiffer ground has a larger VsZ and shallower bedrock", "statement": "Raising the shear-wave velocity of one or several layers never lowers Vs30 or VsZ (either option, any Z) and never makes the basin depth, z1 or the bedrock depth larger; taking a lower velocity as the mark of bedrock never makes the basin deeper, and the basin depth never exceeds the sum of the thicknesses. Where velocity does not decrease with depth, VsZ does not decrease with Z.", "quantifier": "every pair of valid profiles with the same thicknesses and ordered velocities, every Z > 0, both options, every pair of thresholds", "why_tests_cant": "A relation between two runs over all profiles; an off-by-one in the accumulation of depth or a wrong branch at the last layer breaks it only for some relations between Z and layer boundaries.", "anchors": ["PySeismoSoil/helper_site_response.py:837-904", "PySeismoSoil/helper_site_response.py:907-943", "PySeismoSoil/helper_site_response.py:1042-1093"]}
{"id": "C200", "title": "Peaks, response spectra and intensity of the sum of two motions", "statement": "Adding two records of the same time axis sample by sample, velocities and displacements add sample by sample; peak acceleration, velocity, displacement and every ordinate of the response spectra of the sum do not exceed the sum of those of the parts (and the peaks are not smaller than their difference); the square root of the Arias intensity satisfies the triangle inequality.", "quantifier": "every pair of records with common times, every list of frequencies, damping ratio and sub-sampling interval, every c = pi/(2g) > 0", "why_tests_cant": "A relation among three runs for arbitrary records; a sign or an index error in the recursion of the oscillator or in the running sums need not show in the spectra of one record.", "anchors": ["PySeismoSoil/helper_site_response.py:375-405", "PySeismoSoil/helper_site_response.py:485-740", "PySeismoSoil/class_ground_motion.py:477-530"]}
{"id": "C201", "title": "Limit on the iterations and tolerance of the equivalent-linear solver", "statement": "A silent run with a smaller max_iter succeeds if one with a larger max_iter does and its moduli and damping ratios are the first ones of the longer run; once a pass repeats the moduli and damping ratios of the pass before, every run reaching that pass has the same response and the same profile. If a run that prints stops before max_iter, its outcome is the same for every max_iter not below the number of passes made. A larger tolerance never makes a run fail nor makes more passes.", "quantifier": "every response calculation, profile, set of curves, tolerance, limit, verbose or not", "why_tests_cant": "The number of passes depends on the data; tests run one limit and one tolerance.", "anchors": ["PySeismoSoil/helper_simulations.py:342-427"]}
{"id": "C202", "title": "Exchanging measurement and simulation reverses the score", "statement": "The score of a pair of values changes its sign and keeps its magnitude if measurement and simulation are exchanged, so that a simulation that is too large by some factor and one that is too small by the same factor are judged alike, on the whole scale from -10 to 10.", "quantifier": "every pair of values", "why_tests_cant": "Tests compare a few computed scores with stored numbers; they do not relate the scores of two pairs.", "anchors": ["PySeismoSoil/helper_gof_scores.py:7-59"]}
{"id": "C203", "title": "Darendeli damping grows with strain and falls with confinement", "statement": "The curves returned by produce_Darendeli_curves follow the trends of the soil tests they summarise. At any strain, a soil with larger vertical stress, lateral stress coefficient, plasticity index or OCR has a G/Gmax that is not smaller. With strain divided by the returned reference strain, all soils share one G/Gmax curve and one curve of damping above the minimum damping. Damping does not decrease with strain, and at a given strain it does not increase with stress, K0 and OCR.", "quantifier": "all admissible soil states (positive stress and OCR, non-negative plasticity index and K0) and all positive strains", "why_tests_cant": "A test compares a few stresses and plasticity indices at tabulated strains; trends over all states and strains are inequalities between transcendental functions.", "anchors": ["PySeismoSoil/helper_hh_calibration.py:911-1026"]}
{"id": "C204", "title": "Between tabulated values site factors change linearly and without jumps", "statement": "If two of Vs30, z1 and PGA have tabulated values and the third lies between two neighbouring tabulated values, the amplification and phase factors are, at each frequency, the linear interpolation between the two tabulated curves; towards the ends of the interval they approach the tabulated curves, so that there is no jump from one interval to the next.", "quantifier": "every accepted query with two tabulated parameters, every kind of factor and method", "why_tests_cant": "A test compares single queries with stored numbers; it does not see which of the eight curves contribute, nor jumps between cells.", "anchors": ["PySeismoSoil/class_site_factors.py:272-349", "PySeismoSoil/class_site_factors.py:476-570"]}
{"id": "C205", "title": "The parameters of the soil models have the documented meaning", "statement": "At gamma_ref the MKZ stress is Gmax*gamma_ref/(1+beta); a larger gamma_ref or Gmax or a smaller beta never lowers the stress, and s turns the curve about gamma_ref. A larger Gmax, mu or Tmax never lowers the FKZ stress, half of the strength is reached at (Tmax/(mu Gmax))^(1/d), and a larger d never raises the stress for strains up to 1. The transition depends on gamma/gamma_t only, begins after gamma_t and is half done at gamma_t*10^(4.039 a^-1.036). The HH stress of a stiffer or stronger soil is nowhere lower.", "quantifier": "every strain > 0 and every positive parameter set", "why_tests_cant": "Inequalities between curves of arbitrary parameter sets over all strains.", "anchors": ["PySeismoSoil/helper_mkz_model.py:tau_MKZ", "PySeismoSoil/helper_hh_model.py:tau_FKZ", "PySeismoSoil/helper_hh_model.py:transition_function", "PySeismoSoil/helper_hh_model.py:tau_HH"]}
{"id": "C206", "title": "The HH stress increases with strain up to the strength", "statement": "The stress returned by tau_HH does not decrease with increasing strain and does not exceed the shear strength Tmax.", "quantifier": "every increasing list of strains > 0 and every positive parameter set with s <= 1", "why_tests_cant": "A test evaluates a few parameter sets from calibrations; the failing sets are those in which the MKZ curve is above the FKZ curve at the transition.", "anchors": ["PySeismoSoil/helper_hh_model.py:tau_HH"]}
{"id": "C207", "title": "Amplification is bounded by the impedance contrasts and decays with the damping along the path", "statement": "For a profile of layers of one damping ratio x, the amplification relative to rock outcrop lies at every frequency f between the product of the impedance ratios (below to above) smaller than 1, times exp(-2 pi f x T), and the product of those larger than 1, times exp(-2 pi f T x/(1+4x^2)), T being the travel time. If the impedance grows with depth the amplification is at most the ratio of the impedances of rock and uppermost layer, which an undamped layer reaches at a quarter of the wave length.", "quantifier": "All numbers of layers, thicknesses, velocities and densities, one damping ratio >= 0, all frequencies.", "why_tests_cant": "Bounds over all profiles and frequencies; tests evaluate single profiles.", "anchors": ["PySeismoSoil/helper_site_response.py L1285-1340"]}
{"id": "C208", "title": "Results depend on the ground, not on how it is divided into layers", "statement": "Two profiles that have the same shear-wave velocity at every depth down to Z have the same VsZ (and Vs30), however they are divided into layers and whatever is below Z; if they agree at every depth and are equally deep they have the same basin depths and z1. If also damping and density agree at every depth, the tables of transfer functions and the linear response at the surface (both boundaries, also deconvolved) are the same. A profile truncated at some depth keeps VsZ for every Z down to that depth, and vs30 if truncated at 30 m or deeper.", "quantifier": "every pair of valid profiles describing the same ground, every Z > 0, every velocity threshold, frequency grid and motion", "why_tests_cant": "A relation between all divisions of the same ground into layers; tests use single profiles. Off-by-one errors at layer interfaces show only for particular thicknesses.", "anchors": ["PySeismoSoil/helper_site_response.py:837-943", "PySeismoSoil/helper_site_response.py:1042-1093", "PySeismoSoil/helper_site_response.py:1221-1340", "PySeismoSoil/helper_site_response.py:1663-1757", "PySeismoSoil/class_Vs_profile.py:truncate"]}
{"id": "C209", "title": "Truncation never raises peak acceleration, Arias intensity or (end cut off) response spectra", "statement": "Whenever Ground_Motion.truncate succeeds, by time or by Arias intensity, the new motion consists of consecutive samples of the old one beginning at the first index returned, with the same time step. Its peak acceleration and Arias intensity are not larger; its velocities are those of the motion less the velocity just before the part, so its peak velocity is at most twice that of the motion. If only the end is cut off, the remaining velocities and displacements are unchanged and no ordinate of the response spectra is larger.", "quantifier": "every motion, limits, extension and mode for which truncate succeeds; every list of frequencies, damping ratio and sub-sampling interval", "why_tests_cant": "A relation between two objects for arbitrary records and limits, including the negative indices that arise before the start of the record.", "anchors": ["PySeismoSoil/class_ground_motion.py:564-690", "PySeismoSoil/class_ground_motion.py:477-530", "PySeismoSoil/helper_site_response.py:375-405", "PySeismoSoil/helper_site_response.py:485-740"]}
{"id": "C210", "title": "Randomised profiles follow from the seed", "statement": "A randomised profile is determined by the seed given: two calls with the same seed return the same profile at whatever time they are made, also with the search for a compliant profile, and every number is accepted as a seed. A search for a compliant profile beginning at any seed between the first one and the one it ended with returns the same profile. Without a seed, every call draws a new profile, and the search for a compliant profile goes on to new ones.", "quantifier": "all SVM objects, all random number generators, all seeds and times of calling, both kinds of layering and both standard deviations, with and without compliance", "why_tests_cant": "A test tries one or two seeds; that the outcome is a function of the seed alone, which seeds are refused, and how many profiles can ever be drawn without a seed are statements about all seeds, times and generators.", "anchors": ["PySeismoSoil/class_svm.py:467-607", "PySeismoSoil/class_svm.py:753"]}
{"id": "C211", "title": "Scores do not change when both motions are multiplied by the same factor", "statement": "If measurement and simulation are multiplied by the same positive factor (another unit of acceleration), all ten goodness-of-fit scores stay the same.", "quantifier": "all pairs of records, all factors, frequency ranges, with and without baseline correction, all filters and wavelets", "why_tests_cant": "An invariance over all pairs of records and factors through a chain of filters, integrations, spectra and thresholds; tests use a few records in one unit.", "anchors": ["PySeismoSoil/helper_gof_scores.py:12-250", "PySeismoSoil/helper_gof_scores.py:300-487", "PySeismoSoil/helper_gof_scores.py:589-902"]}
{"id": "C212", "title": "Estimated shear strength grows with depth and stiffness", "statement": "In the calibration of soil models for a profile without given strengths, a layer gets a greater shear strength than a layer above it (or at the same stress) that is not stiffer.", "quantifier": "all profiles with positive thicknesses, densities and velocities, all pairs of layers", "why_tests_cant": "A monotonicity over all velocities and stresses, across two formulas with a switch at 760 m/s; tests compare a few layers with stored numbers.", "anchors": ["PySeismoSoil/helper_hh_calibration.py:661-717", "PySeismoSoil/helper_hh_calibration.py:740-811", "PySeismoSoil/helper_hh_calibration.py:884-908"]}
{"id": "C213", "title": "Damping computed from MKZ parameters grows with strain and falls with the reference strain", "statement": "The damping ratios that MKZ_Param.get_damping returns for increasing strains do not decrease from one strain to the next, and a soil with a larger reference strain (same exponent, beta not larger) has nowhere more damping.", "quantifier": "all MKZ parameters with exponent in (0, 1], all lists of increasing strains", "why_tests_cant": "A monotonicity over all parameters and strain grids of a ratio of sums of areas; tests compare a few grids with stored numbers.", "anchors": ["PySeismoSoil/helper_site_response.py:2210-2250", "PySeismoSoil/helper_mkz_model.py:10-130", "PySeismoSoil/class_parameters.py:173-198"]}
{"id": "C214", "title": "Over a rigid base the motion returned for the base is the input motion", "statement": "With a rigid boundary, linear and equivalent-linear simulations return for the base of the soil column (last interface) the input acceleration, sample by sample, and list its peak as the peak acceleration there, whatever soil lies above.", "quantifier": "all profiles that end in a half space, all motions of at least two samples, all degradation curves, tolerances and numbers of iterations", "why_tests_cant": "An identity of Fourier transforms through halving, padding, over-sampling, interpolation, folding and inverse transform, for motions of any length and all profiles.", "anchors": ["PySeismoSoil/helper_simulations.py:66-222", "PySeismoSoil/helper_simulations.py:224-472", "PySeismoSoil/helper_simulations.py:584-761", "PySeismoSoil/helper_simulations.py:810-930"]}
{"id": "C215", "title": "Profiles of peak values are the peaks of the reported histories", "statement": "In the results of linear and equivalent-linear simulations, max_a_v_d has one row per interface of the re-discretised profile with its depth and the largest absolute values of the acceleration, velocity and displacement histories reported for it; max_gamma_tau has one row per layer with the depth of its middle and the largest absolute strain and stress; the first peak acceleration is that of the surface motion returned.", "quantifier": "all runs that return, for all profiles, motions, curves and boundaries", "why_tests_cant": "A relation between several parts of one result for all layerings; a shift by one layer or the use of the padded sample shows only for particular motions.", "anchors": ["PySeismoSoil/helper_simulations.py:810-930", "PySeismoSoil/helper_site_response.py:1137-1172"]}
{"id": "C216", "title": "Reversing the direction of the motion reverses the response and nothing else", "statement": "If the sign of the input motion is changed, linear and equivalent-linear simulations return the same results with the accelerations, velocities, displacements, strains, stresses and surface motion of the opposite sign: the re-discretised profile with its moduli and damping, frequencies, transfer function and profiles of peak values are the same. Response spectra, Arias intensity and significant duration of the motion are the same.", "quantifier": "all profiles, motions, curves, boundaries, tolerances and numbers of iterations, including the runs that raise an error", "why_tests_cant": "A symmetry over all motions of an iteration that is not linear; a missing absolute value shows only for motions whose largest strain is negative.", "anchors": ["PySeismoSoil/helper_simulations.py:66-222", "PySeismoSoil/helper_simulations.py:224-472", "PySeismoSoil/helper_simulations.py:584-930", "PySeismoSoil/helper_site_response.py:485-740", "PySeismoSoil/class_ground_motion.py:438-530"]}
{"id": "C217", "title": "Results do not depend on the time at which a record begins", "statement": "If the time column of a motion is shifted, integration and Arias intensity give the same values at the shifted times, the significant duration and the response spectra are the same, and linear and equivalent-linear simulations return the same results with the surface motion at the shifted times.", "quantifier": "all records, shifts, profiles, curves, boundaries and options, including the runs that raise an error", "why_tests_cant": "Tests use records that begin at 0 or at the time step; whether absolute times enter anywhere has to be settled for all shifts.", "anchors": ["PySeismoSoil/helper_simulations.py:475-581", "PySeismoSoil/helper_simulations.py:810-930", "PySeismoSoil/helper_site_response.py:375-405", "PySeismoSoil/helper_site_response.py:485-740", "PySeismoSoil/class_ground_motion.py:438-530"]}
{"id": "C218", "title": "Signal processing treats both directions of a motion alike", "statement": "Filters and baseline corrections of the motion in the opposite direction give the opposite of the processed motion; Fourier amplitudes and response spectra are the same for both directions.", "quantifier": "all motions, filters, orders, cut-off frequencies, wavelets and periods", "why_tests_cant": "Comparisons with zero decide where the baseline correction cuts a record; tests use one direction of a few recorded motions, in which no sample is exactly zero.", "anchors": ["PySeismoSoil/helper_signal_processing.py:178-332", "PySeismoSoil/helper_signal_processing.py:335-500", "PySeismoSoil/helper_signal_processing.py:503-581", "PySeismoSoil/helper_gof_scores.py:490-537"]}
{"id": "C219", "title": "Goodness-of-fit scores tell a simulation of the wrong polarity from a good one", "statement": "If measurement and simulation are both taken in the opposite direction, all scores stay the same; if only the simulation is taken in the opposite direction, the scores recognise that the motions do not agree.", "quantifier": "all pairs of motions, frequency ranges and filter designs", "why_tests_cant": "The scores of one pair of motions say nothing about what the scores are blind to; that needs a comparison over all pairs.", "anchors": ["PySeismoSoil/helper_gof_scores.py:62-250", "PySeismoSoil/helper_gof_scores.py:300-487", "PySeismoSoil/helper_gof_scores.py:589-781", "PySeismoSoil/helper_gof_scores.py:784-902"]}
{"id": "C220", "title": "Repeating an operation with the same arguments changes nothing", "statement": "Dividing a profile into thin layers, truncating a profile at a depth, asking for the velocities of given layers, scaling a motion to a peak acceleration, or cutting off the end of a motion at a time, and then doing the same once more to the result, gives the same ground or the same record as doing it once.", "quantifier": "all valid profiles, depths, rock velocities and thicknesses; all motions, target peaks and time limits", "why_tests_cant": "A test repeats an operation for one profile or motion; rounding up to whole layers, renumbering of materials or recomputed indices could shift the result of other ones with every repetition.", "anchors": ["PySeismoSoil/helper_site_response.py:31-112", "PySeismoSoil/class_Vs_profile.py:Vs_Profile.truncate", "PySeismoSoil/class_Vs_profile.py:Vs_Profile.query_Vs_given_thk", "PySeismoSoil/class_ground_motion.py:Ground_Motion.scale_motion", "PySeismoSoil/class_ground_motion.py:Ground_Motion.truncate"]}
{"id": "C221", "title": "A soil column can be cut: its upper part, driven by the motion calculated at the cut, responds like within the whole column", "statement": "Calculate a column with the linear every-layer solver, take the acceleration reported at the top of any layer, and apply it to the base of the part of the column above (rigid base). For records with an odd number of samples the accelerations of the upper part are those reported for the whole column, up to a constant offset which vanishes for records with mean zero; for these velocities, displacements, strains and stresses agree as well.", "quantifier": "all valid profiles on a half space, both boundaries of the whole column, all cuts, all evenly sampled records with an odd number of samples", "why_tests_cant": "Every test uses one column and one record. That two calculations with different profiles, boundaries and inputs agree at every layer and sample follows from the continuity of displacements at the cut and from the algebra of spectra.", "anchors": ["PySeismoSoil/helper_simulations.py:66-221", "PySeismoSoil/helper_simulations.py:584-761", "PySeismoSoil/class_simulation.py:Linear_Simulation.run"]}
{"id": "C222", "title": "The order in which a motion passes two deposits or transfer functions does not matter", "statement": "Amplifying a motion by one transfer function or soil profile (or deconvolving it) and then by another one gives the same motion, on the same times, as doing so in the opposite order; if both operations are possible for the motion, both sequences are possible.", "quantifier": "all motions, pairs of transfer functions or profiles, boundaries, amplification or deconvolution", "why_tests_cant": "Tests apply one transfer function to one motion. That two operations commute for all motions rests on the conjugate symmetry of the two-sided transfer function, which keeps the intermediate motion real.", "anchors": ["PySeismoSoil/helper_site_response.py:amplify_motion", "PySeismoSoil/helper_site_response.py:linear_site_resp", "PySeismoSoil/class_ground_motion.py:Ground_Motion.amplify", "PySeismoSoil/class_ground_motion.py:Ground_Motion.deconvolve", "PySeismoSoil/class_ground_motion.py:Ground_Motion.amplify_by_tf"]}
{"id": "C223", "title": "Peak acceleration, velocity, displacement, duration and Arias intensity limit each other", "statement": "For a motion made from accelerations PGV is at most duration times PGA, PGD at most duration times PGV and at most n(n+1)/2 dt^2 PGA, PGA at most 2 PGV / dt and PGV at most 2 PGD / dt; for motions made from velocities or displacements the differentiated peaks are limited in the same way. Arias intensity is at most that of a motion with peak acceleration all the time, and the square of PGV is at most the duration times the energy.", "quantifier": "all motions, units, motion types and time steps", "why_tests_cant": "A test compares the peaks of one record. The limits hold for all records and are attained by constant accelerations; they need induction over the running sums and the Cauchy-Schwarz inequality.", "anchors": ["PySeismoSoil/class_ground_motion.py:Ground_Motion.__init__", "PySeismoSoil/helper_site_response.py:num_int", "PySeismoSoil/helper_site_response.py:num_diff", "PySeismoSoil/class_ground_motion.py:Ground_Motion.__calc_Arias"]}
{"id": "C224", "title": "The order of filters and integrations does not matter", "statement": "Two filters (low-pass, high-pass, band-pass, band-stop) applied to a motion in either order give the same motion, and the velocity and displacement of a filtered accelerogram are the filtered velocity and displacement of the accelerogram; a filter does not depend on the order of its sections.", "quantifier": "all motions, filter types, orders, cut-off frequencies and designs of the filters", "why_tests_cant": "A test filters one record. That filters commute for all records and designs is a statement about z-transforms of cascades of any number of sections.", "anchors": ["PySeismoSoil/helper_signal_processing.py:_filter_kernel", "PySeismoSoil/helper_site_response.py:num_int", "PySeismoSoil/class_ground_motion.py:Ground_Motion.lowpass", "PySeismoSoil/class_ground_motion.py:Ground_Motion.highpass", "PySeismoSoil/class_ground_motion.py:Ground_Motion.bandpass", "PySeismoSoil/class_ground_motion.py:Ground_Motion.bandstop"]}
{"id": "C225", "title": "The sediment velocity model is the published velocity function of depth", "statement": "Without a cap the base profile of an SVM object has in every row the velocity of the published function (constant down to 2.5 m, Vs0 (1 + k (z - 2.5))^(1/n) below) at 0.1 m below the top of the row, so that at every depth it equals the function up to its growth within 0.1 m and is never lower; with a cap this holds for the rows below eta times the cap. Without a depth given, z1 is 140.511 exp(-0.00303 Vs30).", "quantifier": "all Vs30 between 0 and 2500 m/s, all depths z1 > 2.5 m, all caps and eta in (0, 1]", "why_tests_cant": "A test compares single values. The error bound holds at every depth of every profile and needs the concavity of the power function.", "anchors": ["PySeismoSoil/class_svm.py:SVM.__init__", "PySeismoSoil/helper_site_response.py:calc_z1_from_Vs30"]}
{"id": "C226", "title": "Darendeli curves are the published ones, with the damping of the Masing loop on the hyperbola", "statement": "For soil states with positive stress and OCR and non-negative plasticity index and K0, produce_Darendeli_curves() returns for every layer the published reference strain, modulus reduction and damping (ten cycles, 1 Hz). The closed form it uses for the hysteretic damping equals the energy dissipated in a Masing loop on the hyperbolic stress-strain curve, obtained from the area under the curve, over 4 pi times the elastic energy. It does not decrease with strain, and MKZ_Param.get_damping() for the hyperbolic model (s = 1, beta = 1) approaches it from below, to within (200/pi) w/e percent for strains no more than w apart up to the strain e.", "quantifier": "all soil states, all numbers of layers, all positive strains", "why_tests_cant": "The hysteretic damping is defined by an integral; a test can only compare it with numerical integration at sampled strains.", "anchors": ["PySeismoSoil/helper_hh_calibration.py:produce_Darendeli_curves", "PySeismoSoil/class_parameters.py:MKZ_Param.get_damping"]}
{"id": "C227", "title": "Estimated densities are the published function of velocity and depth", "statement": "If densities are estimated, every layer gets the density 1000 + 1000 Vs / (0.614 Vs + 58.7 log10(z) + 64.2765) kg/m3 at its mid-depth z, but at least 1650. From 0.1 m depth on, this grows with the velocity and decreases with the depth, and the lower bound is in force exactly up to a velocity proportional to 58.7 log10(z) + 64.2765.", "quantifier": "all thicknesses > 0 and velocities for which densities are returned", "why_tests_cant": "A test checks sample profiles; that the order of densities follows that of the velocities, and where exactly the lower bound sets in, concerns all depths and velocities.", "anchors": ["PySeismoSoil/helper_hh_calibration.py:_calc_rho"]}
