{
 "claims": [
  {
   "property": "C01",
   "status": "proved",
   "theorems": [
    "Verif.C01_thk2dep_tops",
    "Verif.C01_thk2dep_midpoints",
    "Verif.C01_thk_roundtrip",
    "Verif.C01_thk_roundtrip_halfspace",
    "Verif.C01_dep_roundtrip",
    "Verif.C01_dep2thk_no_halfspace",
    "Verif.C01_errors"
   ],
   "note": "Proved for all inputs of the model."
  },
  {
   "property": "C02",
   "status": "proved",
   "theorems": [
    "Verif.C02_query_depth",
    "Verif.C02_velocity_unique",
    "Verif.C02_negative_depth"
   ],
   "note": "Proved for all inputs of the model."
  },
  {
   "property": "C03",
   "status": "proved",
   "theorems": [
    "Verif.C03_VsZ_option1",
    "Verif.C03_VsZ_option2",
    "Verif.C03_Vs30",
    "Verif.C03_bad_option"
   ],
   "note": "Proved for all inputs of the model."
  },
  {
   "property": "C04",
   "status": "proved",
   "theorems": [
    "Verif.C04_VsZ_between",
    "Verif.C04_VsZ_uniform"
   ],
   "note": "Proved for all inputs of the model."
  },
  {
   "property": "C05",
   "status": "proved",
   "theorems": [
    "Verif.C05_VsZ_split"
   ],
   "note": "Proved for all inputs of the model."
  },
  {
   "property": "C06",
   "status": "proved",
   "theorems": [
    "Verif.C06_basin_depth",
    "Verif.C06_basin_depth_mono",
    "Verif.C06_z1"
   ],
   "note": "Proved for all inputs of the model."
  },
  {
   "property": "C07",
   "status": "partial",
   "theorems": [
    "Verif.C07_exact",
    "Verif.C07_sublayers_partial",
    "Verif.C07_column_preserved_partial",
    "Verif.C07_total_thickness_violated"
   ],
   "note": "Proved on the part stated in the _partial theorem's comment. The code violates the full property: C07_total_thickness_violated: C07 fails: a 3.00001 m layer with Vs = 225 m/s becomes four 1 m sub-layers, i.e. the soil column grows from 3.00001 m to 4 m. (The ratio is within `np.allclose` of 3, but its ceiling is 4.)"
  },
  {
   "property": "C08",
   "status": "proved",
   "theorems": [
    "Verif.C08_truncate",
    "Verif.C08_truncate_rejects"
   ],
   "note": "Proved for all inputs of the model."
  },
  {
   "property": "C09",
   "status": "partial",
   "theorems": [
    "Verif.C09_exact",
    "Verif.C09_original_partial",
    "Verif.C09_original_violated"
   ],
   "note": "Proved on the part stated in the _partial theorem's comment. The code violates the full property: C09_original_violated: C09 fails: truncating a two-layer profile (10 m + 10 m) at 5 m shortens the original's first layer, so a later truncation at 15 m yields a 10 m deep profile instead of a 15 m deep one."
  },
  {
   "property": "C10",
   "status": "partial",
   "theorems": [
    "Verif.C10_exact",
    "Verif.C10_twice_violated",
    "Verif.C10_caller_array_partial",
    "Verif.C10_caller_array_violated"
   ],
   "note": "Proved on the part stated in the _partial theorem's comment. The code violates the full property: C10_twice_violated: C10 is violated by every five-column array with densities in g/cm\u00b3 or damping in percent: a second object built from the same array has other densities or damping ratios than the first. C10_caller_array_violated: C10 fails for densities in g/cm^3: the caller's array is rescaled, so the second profile built from the same array has a density of 1.8 million kg/m^3."
  },
  {
   "property": "C11",
   "status": "partial",
   "theorems": [
    "Verif.C11_halfspace_all_violated",
    "Verif.C11_formula_all_violated",
    "Verif.C11_format_check",
    "Verif.C11_construct_partial",
    "Verif.C11_five_columns_partial",
    "Verif.C11_two_columns",
    "Verif.C11_construct_rejects",
    "Verif.C11_halfspace_material_violated",
    "Verif.C11_formula_violated"
   ],
   "note": "Proved on the part stated in the _partial theorem's comment. The code violates the full property: C11_halfspace_all_violated: C11 is violated by every five-column array that ends in a layer of positive thickness with material number 0 if a half space is added: the object is made, with a profile that the format check rejects. (All other arrays: `C11_construct_partial`.) C11_formula_all_violated: C11/C72 are violated by every undocumented `xi_rho_formula` and every two-column array: no error, zero damping in all layers, which the format check rejects. C11_halfspace_material_violated: C11 fails for a five-column array ending in a row of positive thickness and material number 0 with `add_halfspace=True`: the object holds a soil layer with material number 0, which the format check itself rejects. C11_formula_violated: C11/C72 fail for an undocumented `xi_rho_formula`: no error, zero damping."
  },
  {
   "property": "C12",
   "status": "partial",
   "theorems": [
    "Verif.C12_halfspace_all_violated",
    "Verif.C12_query_thk_partial",
    "Verif.C12_scalar",
    "Verif.C12_auto_layers",
    "Verif.C12_halfspace_violated"
   ],
   "note": "Proved on the part stated in the _partial theorem's comment. The code violates the full property: C12_halfspace_all_violated: C12 is violated by every list of thicknesses that ends in a zero: there is no velocity for the last entry. The other velocities are those at the mid-points. C12_halfspace_violated: C12 fails for mid-point queries of a thickness array ending with a half space: the velocity array is one element short of the thickness array."
  },
  {
   "property": "C13",
   "status": "partial",
   "theorems": [
    "Verif.C13_construct",
    "Verif.C13_construct_rejects",
    "Verif.C13_step",
    "Verif.C13_history_partial",
    "Verif.C13_slice_delete_iff",
    "Verif.C13_slice_delete_violated",
    "Verif.C13_slice_class_violated",
    "Verif.C13_slice_class_exact"
   ],
   "note": "Proved on the part stated in the _partial theorem's comment. The code violates the full property: C13_slice_delete_violated: C13 fails: after `del foo[:]` on three curves, `len(foo)` is 2 although no curve is left. C13_slice_class_violated: C13 fails for a base-class container of damping curves: a slice of it accepts a G/Gmax curve, which the container itself rejects."
  },
  {
   "property": "C14",
   "status": "partial",
   "theorems": [
    "Verif.C14_step_exact",
    "Verif.C14_history_exact_partial",
    "Verif.C14_construct",
    "Verif.C14_history_partial",
    "Verif.C14_set_violated",
    "Verif.C14_slice_delete_violated",
    "Verif.C14_slice_assign_violated",
    "Verif.C14_base_slice_violated"
   ],
   "note": "Proved on the part stated in the _partial theorem's comment. The code violates the full property: C14_set_violated: C14 fails: any object can be assigned into an HH container. C14_slice_delete_violated: C14 fails: slice deletion leaves a wrong layer count. C14_slice_assign_violated: C14 fails: slice assignment changes the number of layers but not the count. C14_base_slice_violated: C14 fails: slicing a base-class container always raises TypeError."
  },
  {
   "property": "C15",
   "status": "partial",
   "theorems": [
    "Verif.C15_step_exact",
    "Verif.C15_update_all_violated",
    "Verif.C15_update",
    "Verif.C15_update_values",
    "Verif.C15_construct",
    "Verif.C15_construct_values",
    "Verif.C15_history_partial",
    "Verif.C15_rejections",
    "Verif.C15_set_get",
    "Verif.C15_ior_violated",
    "Verif.C15_update_violated"
   ],
   "note": "Proved on the part stated in the _partial theorem's comment. The code violates the full property: C15_update_all_violated: `update` with a foreign key: the entries before it are assigned, the rest is not, and the KeyError is raised: C15 is violated whenever one of the entries before changes something. C15_ior_violated: C15 fails for `|=`: a foreign key enters the object without an error. C15_update_violated: C15 fails for `update`: the keys before the foreign one are already changed when the KeyError is raised."
  },
  {
   "property": "C16",
   "status": "proved",
   "theorems": [
    "Verif.C16_hh_roundtrip",
    "Verif.C16_hh_array",
    "Verif.C16_mkz_roundtrip",
    "Verif.C16_hh_multilayer"
   ],
   "note": "Proved for all inputs of the model."
  },
  {
   "property": "C17",
   "status": "proved",
   "theorems": [
    "Verif.C17_split",
    "Verif.C17_split_rejects",
    "Verif.C17_merge",
    "Verif.C17_merge_rejects",
    "Verif.C17_assemble",
    "Verif.C17_combined_init"
   ],
   "note": "Proved for all inputs of the model."
  },
  {
   "property": "C18",
   "status": "partial",
   "theorems": [
    "Verif.C18_caller_array_partial",
    "Verif.C18_units",
    "Verif.C18_curve_violated",
    "Verif.C18_rejected_curve_violated",
    "Verif.C18_accepted_range",
    "Verif.C18_exact"
   ],
   "note": "Proved on the part stated in the _partial theorem's comment. The code violates the full property: C18_curve_violated: C18 fails: two damping curves built from the same array given in unit 1. The second construction multiplies the shared array again, so that also the first curve now shows strains and damping 100 times too large. C18_rejected_curve_violated: C18 fails even when construction is rejected: the array has been rescaled before the ValueError."
  },
  {
   "property": "C19",
   "status": "proved",
   "theorems": [
    "Verif.C19_diff_of_int",
    "Verif.C19_int_of_diff"
   ],
   "note": "Proved for all inputs of the model."
  },
  {
   "property": "C20",
   "status": "partial",
   "theorems": [
    "Verif.C20_exact",
    "Verif.C20_twice_violated",
    "Verif.C20_caller_array_partial",
    "Verif.C20_other_arrays",
    "Verif.C20_values",
    "Verif.C20_violated"
   ],
   "note": "Proved on the part stated in the _partial theorem's comment. The code violates the full property: C20_twice_violated: C20 is violated by every two-column array in a unit other than SI: a second motion built from the same array has its values converted twice, and so has the first motion from then on. C20_violated: C20 fails: two motions constructed from one array in cm/s/s. The second shows values 100 times smaller, and so does the first from then on."
  },
  {
   "property": "C21",
   "status": "partial",
   "theorems": [
    "Verif.C21_exact",
    "Verif.C21_twice_violated",
    "Verif.C21_unknown_all_violated",
    "Verif.C21_file",
    "Verif.C21_unchanged_partial",
    "Verif.C21_violated",
    "Verif.C21_unknown_unit_violated"
   ],
   "note": "Proved on the part stated in the _partial theorem's comment. The code violates the full property: C21_twice_violated: C21 is violated by every motion: the second of two saves in the same unit writes values converted twice. C21_unknown_all_violated: C21 is violated by every unknown unit, and by every unit of length or velocity: the values in m/s/s are written, no error is raised. C21_violated: C21 fails: after saving in g the motion's acceleration is in g, and saving again in g writes other numbers. C21_unknown_unit_violated: C21 fails: an unknown unit is not rejected; the SI numbers are written."
  },
  {
   "property": "C22",
   "status": "proved",
   "theorems": [
    "Verif.C22_arias",
    "Verif.C22_no_energy",
    "Verif.C22_scale"
   ],
   "note": "Proved for all inputs of the model."
  },
  {
   "property": "C23",
   "status": "partial",
   "theorems": [
    "Verif.C23_low_all_violated",
    "Verif.C23_bounds_partial",
    "Verif.C23_rejects",
    "Verif.C23_significant_duration",
    "Verif.C23_low_zero_violated"
   ],
   "note": "Proved on the part stated in the _partial theorem's comment. The code violates the full property: C23_low_all_violated: C23 is violated by every low threshold which the first sample has reached already: the lower bound is time 0, whether the record contains it or not. C23_low_zero_violated: C23 fails for a low threshold of 0 when the record does not start at time 0: the lower bound lies outside of the record."
  },
  {
   "property": "C24",
   "status": "partial",
   "theorems": [
    "Verif.C24_before_start_exact",
    "Verif.C24_arias_as_time",
    "Verif.C24_arias_offset_exact",
    "Verif.C24_before_start_all_violated",
    "Verif.C24_truncate_partial",
    "Verif.C24_rejects",
    "Verif.C24_after_end",
    "Verif.C24_before_start_violated",
    "Verif.C24_arias_offset_violated"
   ],
   "note": "Proved on the part stated in the _partial theorem's comment. The code violates the full property: C24_before_start_all_violated: C24 is violated by every window which ends `k` or more, but less than `k + 1`, intervals before time 0, provided the record is at least `k + 2` samples long: it is answered with the record without its last `k` samples. C24_before_start_violated: C24 fails: the window from -9 to -3, before the start of the record, is answered with the first three samples. C24_arias_offset_violated: C24 fails for truncation by Arias intensity of a record starting at time 10. The strong part, the third to fifth sample at times 12 to 14, lies inside of the record, but its absolute times are used as offsets and the result is an error."
  },
  {
   "property": "C25",
   "status": "proved",
   "theorems": [
    "Verif.C25_factor",
    "Verif.C25_target",
    "Verif.C25_zero",
    "Verif.C25_original_unchanged"
   ],
   "note": "Proved for all inputs of the model."
  },
  {
   "property": "C26",
   "status": "proved",
   "theorems": [
    "Verif.C26_scaling",
    "Verif.C26_peaks",
    "Verif.C26_rows"
   ],
   "note": "Proved for all inputs of the model."
  },
  {
   "property": "C27",
   "status": "partial",
   "theorems": [
    "Verif.C27_uneven_partial",
    "Verif.C27_violated",
    "Verif.C27_gate",
    "Verif.C27_shorter_violated"
   ],
   "note": "Proved on the part stated in the _partial theorem's comment. The code violates the full property: C27_violated: C27 fails: intervals 1, 1/2 are accepted. C27_shorter_violated: C27 fails for every record whose later intervals are no longer than the first one, however uneven: no error is raised, and the spectra are those of the accelerations spaced evenly by the first interval."
  },
  {
   "property": "C28",
   "status": "proved",
   "theorems": [
    "Verif.C28_step",
    "Verif.C28_exact",
    "Verif.C28_exists",
    "Verif.C28_spectra",
    "Verif.C28_response"
   ],
   "note": "Proved for all inputs of the model."
  },
  {
   "property": "C29",
   "status": "proved",
   "theorems": [
    "Verif.C29_amplify_real",
    "Verif.C29_no_shape_error",
    "Verif.C29_every_layer"
   ],
   "note": "Proved for all inputs of the model."
  },
  {
   "property": "C30",
   "status": "proved",
   "theorems": [
    "Verif.C30_inverse",
    "Verif.C30_roundtrip",
    "Verif.C30_unit_tf"
   ],
   "note": "Proved for all inputs of the model."
  },
  {
   "property": "C31",
   "status": "partial",
   "theorems": [
    "Verif.C31_first_peak_partial",
    "Verif.C31_rising",
    "Verif.C31_short",
    "Verif.C31_second_last_violated",
    "Verif.C31_violated"
   ],
   "note": "Proved on the part stated in the _partial theorem's comment. The code violates the full property: C31_second_last_violated: C31 fails for every spectrum whose first peak is its second-last point: the last frequency is returned. C31_violated: C31 fails: the peak is at frequency 2, the function returns 3."
  },
  {
   "property": "C32",
   "status": "partial",
   "theorems": [
    "Verif.C32_repair_partial",
    "Verif.C32_nonincreasing",
    "Verif.C32_violated",
    "Verif.C32_unwrap",
    "Verif.C32_robust",
    "Verif.C32_smooth",
    "Verif.C32_initial_climb_violated",
    "Verif.C32_rising",
    "Verif.C32_exact",
    "Verif.C32_length",
    "Verif.C32_robust_all"
   ],
   "note": "Proved on the part stated in the _partial theorem's comment. The code violates the full property: C32_violated: C32 fails: the signal 0, 1, 1/2 has no multi-sample climb, but its first sample is replaced (the trough index -1 is used as an array index). C32_initial_climb_violated: C32 fails for every signal that begins with a complete climb, of however few samples: all samples before the first peak `p` are replaced by a line which starts at the **last** sample of the signal and ends at `-\u03c0` (the trough index -1 is used as an array index). All other samples are treated as documented."
  },
  {
   "property": "C33",
   "status": "proved",
   "theorems": [
    "Verif.C33_ratio",
    "Verif.C33_uniform",
    "Verif.C33_wave",
    "Verif.C33_realised",
    "Verif.C33_static",
    "Verif.C33_grid"
   ],
   "note": "Proved for all inputs of the model."
  },
  {
   "property": "C34",
   "status": "partial",
   "theorems": [
    "Verif.C34_split",
    "Verif.C34_subdivision",
    "Verif.C34_base_thickness",
    "Verif.C34_stratify_partial",
    "Verif.C34_stratify_violated"
   ],
   "note": "Proved on the part stated in the _partial theorem's comment. The code violates the full property: C34_stratify_violated: C34 fails for the re-discretisation of the code. Soil of 3.00001 m with Vs = 225 m/s over a half space of the same material is replaced by four layers of 1 m, and with any damping the rock-outcrop transfer function of the re-discretised profile is smaller than the one of the profile at every frequency."
  },
  {
   "property": "C35",
   "status": "proved",
   "theorems": [
    "Verif.C35_agree",
    "Verif.C35_every_layer"
   ],
   "note": "Proved for all inputs of the model."
  },
  {
   "property": "C36",
   "status": "partial",
   "theorems": [
    "Verif.C36_early_violated",
    "Verif.C36_exact",
    "Verif.C36_verbose_partial",
    "Verif.C36_verbose_violated"
   ],
   "note": "Proved on the part stated in the _partial theorem's comment. The code violates the full property: C36_early_violated: C36 fails for every run that converges early: with `verbose=False` the same passes are made first, and then further ones up to `max_iter`, each with its own moduli and damping. C36_verbose_violated: `verbose` changes the result: the results of the run which prints stem from the initial moduli, those of the silent run from the reduced ones."
  },
  {
   "property": "C37",
   "status": "partial",
   "theorems": [
    "Verif.C37_exact",
    "Verif.C37_stops_partial",
    "Verif.C37_quiet_partial",
    "Verif.C37_stops_violated"
   ],
   "note": "Proved on the part stated in the _partial theorem's comment. The code violates the full property: C37_stops_violated: With `verbose=False` the loop goes on although a pass changed nothing by more than the tolerance."
  },
  {
   "property": "C38",
   "status": "proved",
   "theorems": [
    "Verif.C38_bounds",
    "Verif.C38_degradation"
   ],
   "note": "Proved for all inputs of the model."
  },
  {
   "property": "C39",
   "status": "partial",
   "theorems": [
    "Verif.C39_profile_partial",
    "Verif.C39_profile_violated",
    "Verif.C39_profile_exact"
   ],
   "note": "Proved on the part stated in the _partial theorem's comment. The code violates the full property: C39_profile_violated: The reported profile does not carry the damping of the input."
  },
  {
   "property": "C40",
   "status": "proved",
   "theorems": [
    "Verif.C40_value",
    "Verif.C40_nonneg",
    "Verif.C40_first",
    "Verif.C40_linear",
    "Verif.C40_scale",
    "Verif.C40_bound"
   ],
   "note": "Proved for all inputs of the model."
  },
  {
   "property": "C41",
   "status": "proved",
   "theorems": [
    "Verif.C41_product",
    "Verif.C41_rejects",
    "Verif.C41_accepts"
   ],
   "note": "Proved for all inputs of the model."
  },
  {
   "property": "C42",
   "status": "proved",
   "theorems": [
    "Verif.C42_odd",
    "Verif.C42_modulus",
    "Verif.C42_strict",
    "Verif.C42_reference",
    "Verif.C42_monotone",
    "Verif.C42_monotone_needs_s"
   ],
   "note": "Proved for all inputs of the model."
  },
  {
   "property": "C43",
   "status": "proved",
   "theorems": [
    "Verif.C43_strength",
    "Verif.C43_zero",
    "Verif.C43_sharp"
   ],
   "note": "Proved for all inputs of the model."
  },
  {
   "property": "C44",
   "status": "proved",
   "theorems": [
    "Verif.C44_weight_range",
    "Verif.C44_weight_antitone",
    "Verif.C44_between",
    "Verif.C44_positive",
    "Verif.C44_zero",
    "Verif.C44_midpoint"
   ],
   "note": "Proved for all inputs of the model."
  },
  {
   "property": "C45",
   "status": "proved",
   "theorems": [
    "Verif.C45_overburden",
    "Verif.C45_halfspace",
    "Verif.C45_errors",
    "Verif.C45_increasing"
   ],
   "note": "Proved for all inputs of the model."
  },
  {
   "property": "C46",
   "status": "proved",
   "theorems": [
    "Verif.C46_density",
    "Verif.C46_density_exists",
    "Verif.C46_density_unbounded",
    "Verif.C46_gmax",
    "Verif.C46_k0",
    "Verif.C46_strength",
    "Verif.C46_mohr",
    "Verif.C46_pi",
    "Verif.C46_ocr"
   ],
   "note": "Proved for all inputs of the model."
  },
  {
   "property": "C47",
   "status": "partial",
   "theorems": [
    "Verif.C47_mean_stress",
    "Verif.C47_range",
    "Verif.C47_decreasing",
    "Verif.C47_mkz",
    "Verif.C47_arguments",
    "Verif.C47_curves_partial",
    "Verif.C47_default_violated"
   ],
   "note": "Proved on the part stated in the _partial theorem's comment. The code violates the full property: C47_default_violated: The documented default (`strain_in_pct=None`) never works: TypeError for every soil state."
  },
  {
   "property": "C48",
   "status": "proved",
   "theorems": [
    "Verif.C48_range",
    "Verif.C48_best",
    "Verif.C48_weakly_strained",
    "Verif.C48_strongly_strained",
    "Verif.C48_crossing",
    "Verif.C48_least"
   ],
   "note": "Proved for all inputs of the model."
  },
  {
   "property": "C49",
   "status": "partial",
   "theorems": [
    "Verif.C49_start",
    "Verif.C49_rejects",
    "Verif.C49_h4_violated"
   ],
   "note": "Proved for all inputs of the model. The code violates the full property: C49_h4_violated: `get_H4_x_param` gives what `get_HH_x_param` gives; every layer has the nine HH names, hence no layer is an MKZ parameter set."
  },
  {
   "property": "C50",
   "status": "partial",
   "theorems": [
    "Verif.C50_eta_rejected",
    "Verif.C50_capped_partial",
    "Verif.C50_low_cap_violated",
    "Verif.C50_cap_violated",
    "Verif.C50_exact"
   ],
   "note": "Proved on the part stated in the _partial theorem's comment. The code violates the full property: C50_low_cap_violated: For every positive cap below `Vs0 / eta` that some velocity of the formula exceeds, the velocity decreases below the first layer, to `eta` times the cap. C50_cap_violated: For every positive cap below the velocity `Vs0` of the topmost layer the profile is built all the same; its first layer exceeds the cap and the velocity decreases below it."
  },
  {
   "property": "C51",
   "status": "partial",
   "theorems": [
    "Verif.C51_bedrock_partial",
    "Verif.C51_shallow_flag_violated",
    "Verif.C51_shallow_cap_violated",
    "Verif.C51_fixed_partial",
    "Verif.C51_arguments",
    "Verif.C51_uncapped_violated",
    "Verif.C51_increment_partial",
    "Verif.C51_svm_fixed",
    "Verif.C51_one_metre_violated",
    "Verif.C51_large_increment_violated",
    "Verif.C51_small_increment_violated"
   ],
   "note": "Proved on the part stated in the _partial theorem's comment. The code violates the full property: C51_shallow_flag_violated: On sediments of at most 2.5 m and with the default `Vs_cap=True`, `bedrock_Vs` is the Boolean `True`. C51_shallow_cap_violated: There a numeric `Vs_cap` is reported as the bedrock velocity while the half space keeps 1000 m/s. C51_uncapped_violated: Without a bedrock velocity (`Vs_cap=False`) no discretised profile is ever returned. C51_one_metre_violated: On sediments of at most 2.5 m with the default cap the discretised profile rests on a half space of 1 m/s. C51_large_increment_violated: For every increment between `c - Vs0` and the maximum velocity `c` an IndexError results. C51_small_increment_violated: An increment for which the last soil layer and the half space are both cut off leaves an empty layer, and the request fails: SVM(200, z1=2.65) and an increment of the velocity step from 2.4 m to 2.5 m."
  },
  {
   "property": "C52",
   "status": "proved",
   "theorems": [
    "Verif.C52_layering",
    "Verif.C52_random_profile",
    "Verif.C52_object"
   ],
   "note": "Proved for all inputs of the model."
  },
  {
   "property": "C53",
   "status": "proved",
   "theorems": [
    "Verif.C53_strict",
    "Verif.C53_lenient"
   ],
   "note": "Proved for all inputs of the model."
  },
  {
   "property": "C54",
   "status": "proved",
   "theorems": [
    "Verif.C54_reference_cell",
    "Verif.C54_constructed"
   ],
   "note": "Proved for all inputs of the model."
  },
  {
   "property": "C55",
   "status": "proved",
   "theorems": [
    "Verif.C55_bounded",
    "Verif.C55_sign",
    "Verif.C55_increasing",
    "Verif.C55_ratio"
   ],
   "note": "Proved for all inputs of the model."
  },
  {
   "property": "C56",
   "status": "partial",
   "theorems": [
    "Verif.C56_call",
    "Verif.C56_frame",
    "Verif.C56_history",
    "Verif.C56_returned",
    "Verif.C56_range",
    "Verif.C56_average",
    "Verif.C56_print_violated"
   ],
   "note": "Proved for all inputs of the model. The code violates the full property: C56_print_violated: A new object cannot be printed."
  },
  {
   "property": "C57",
   "status": "partial",
   "theorems": [
    "Verif.C57_least_partial",
    "Verif.C57_proportional",
    "Verif.C57_steps_violated"
   ],
   "note": "Proved on the part stated in the _partial theorem's comment. The code violates the full property: C57_steps_violated: Records of the same values but with different time steps: the score is below 0.1 if the time step of the measurement is the larger one, so that 0.1 is not the best value."
  },
  {
   "property": "C58",
   "status": "partial",
   "theorems": [
    "Verif.C58_serial",
    "Verif.C58_errors",
    "Verif.C58_parallel_partial",
    "Verif.C58_figures_partial",
    "Verif.C58_figures_violated",
    "Verif.C58_directories",
    "Verif.C58_init"
   ],
   "note": "Proved on the part stated in the _partial theorem's comment. The code violates the full property: C58_figures_violated: **C58 is violated** by parallel runs with `show_fig` and caught errors: whenever the serial run returns a list with a `None` in it, the parallel run raises (an `AttributeError`, unless plotting an earlier result raised)."
  },
  {
   "property": "C59",
   "status": "partial",
   "theorems": [
    "Verif.C59_options_partial",
    "Verif.C59_options_violated"
   ],
   "note": "Proved on the part stated in the _partial theorem's comment. The code violates the full property: C59_options_violated: **C59 is violated**: after a serial run that returns, the options hold the directory of the last simulation, so they are changed unless the caller happened to ask for just that directory."
  },
  {
   "property": "C60",
   "status": "proved",
   "theorems": [
    "Verif.C60_accept",
    "Verif.C60_no_missing"
   ],
   "note": "Proved for all inputs of the model."
  },
  {
   "property": "C61",
   "status": "partial",
   "theorems": [
    "Verif.C61_returned_partial",
    "Verif.C61_cwd_violated"
   ],
   "note": "Proved on the part stated in the _partial theorem's comment. The code violates the full property: C61_cwd_violated: **C61 is violated**: if the kernel cannot be run, or does not write its first result file, the call raises and leaves the process in the simulation directory, which is not the one before."
  },
  {
   "property": "C62",
   "status": "partial",
   "theorems": [
    "Verif.C62_fresh",
    "Verif.C62_exists",
    "Verif.C62_outside_partial",
    "Verif.C62_removed",
    "Verif.C62_parent_violated",
    "Verif.C62_slash"
   ],
   "note": "Proved on the part stated in the _partial theorem's comment. The code violates the full property: C62_parent_violated: **C62 is violated**: a directory that existed before, and was empty, is removed together with the simulation directory that was made in it."
  },
  {
   "property": "C63",
   "status": "partial",
   "theorems": [
    "Verif.C63_txt_place",
    "Verif.C63_txt_files",
    "Verif.C63_txt_succeeds",
    "Verif.C63_plot_partial",
    "Verif.C63_plot_violated",
    "Verif.C63_runs_partial",
    "Verif.C63_linear_violated",
    "Verif.C63_quiet",
    "Verif.C63_written"
   ],
   "note": "Proved on the part stated in the _partial theorem's comment. The code violates the full property: C63_plot_violated: **C63 is violated** by `plot` with an `output_dir` argument: the second figure goes to the directory of the object; if that does not exist, the call fails. C63_linear_violated: **C63 is violated** by `Linear_Simulation.run(every_layer=False)`: the requested name and directory are ignored, text files go to a directory named after the time."
  },
  {
   "property": "C64",
   "status": "proved",
   "theorems": [
    "Verif.C64_highpass_unchanged",
    "Verif.C64_lowpass_unchanged",
    "Verif.C64_one_sided",
    "Verif.C64_bandpass",
    "Verif.C64_bandstop",
    "Verif.C64_pass_all",
    "Verif.C64_rejected",
    "Verif.C64_design_error",
    "Verif.C64_axis"
   ],
   "note": "Proved for all inputs of the model."
  },
  {
   "property": "C65",
   "status": "proved",
   "theorems": [
    "Verif.C65_window",
    "Verif.C65_lin_accepts",
    "Verif.C65_lin_smooth",
    "Verif.C65_log_smooth",
    "Verif.C65_log_rejects",
    "Verif.C65_log_weights"
   ],
   "note": "Proved for all inputs of the model."
  },
  {
   "property": "C66",
   "status": "proved",
   "theorems": [
    "Verif.C66_closest"
   ],
   "note": "Proved for all inputs of the model."
  },
  {
   "property": "C67",
   "status": "proved",
   "theorems": [
    "Verif.C67_axis",
    "Verif.C67_rejects"
   ],
   "note": "Proved for all inputs of the model."
  },
  {
   "property": "C68",
   "status": "partial",
   "theorems": [
    "Verif.C68_twice_exact",
    "Verif.C68_same_partial",
    "Verif.C68_after",
    "Verif.C68_unchanged_partial",
    "Verif.C68_unchanged_violated",
    "Verif.C68_negative",
    "Verif.C68_twice_violated"
   ],
   "note": "Proved on the part stated in the _partial theorem's comment. The code violates the full property: C68_unchanged_violated: Serial fitting of any curve with non-zero small-strain damping changes the caller's array (whatever the fit gives); the pool does not. C68_twice_violated: A curve with a dip, used for two layers or fitted twice: the serial fit refuses the array it has itself changed, the pool does not."
  },
  {
   "property": "C69",
   "status": "partial",
   "theorems": [
    "Verif.C69_workers_partial",
    "Verif.C69_violated"
   ],
   "note": "Proved on the part stated in the _partial theorem's comment. The code violates the full property: C69_violated: A requested number of cores is ignored: the optimisation runs on one core."
  },
  {
   "property": "C70",
   "status": "partial",
   "theorems": [
    "Verif.C70_nothing_unwrapped_violated",
    "Verif.C70_wrapped_violated",
    "Verif.C70_frequencies_violated",
    "Verif.C70_smoothed_violated",
    "Verif.C70_smoothed_partial"
   ],
   "note": "Proved on the part stated in the _partial theorem's comment. The code violates the full property: C70_nothing_unwrapped_violated: The spectrum returned by `get_unwrapped_phase(robust=False)` has the values of the original one, and therefore the same phases: nothing is unwrapped. C70_wrapped_violated: With either option the phases of the result lie in (-\u03c0, \u03c0]. C70_frequencies_violated: The frequencies of the result are df, 2 df, \u2026 instead of those of the spectrum. C70_smoothed_violated: `get_smoothed` never returns without a figure, its default."
  },
  {
   "property": "C71",
   "status": "partial",
   "theorems": [
    "Verif.C71_linear_partial",
    "Verif.C71_noHalf_violated",
    "Verif.C71_equivRun_partial",
    "Verif.C71_equiv_partial",
    "Verif.C71_equiv_noHalf_violated"
   ],
   "note": "Proved on the part stated in the _partial theorem's comment. The code violates the full property: C71_noHalf_violated: A valid profile whose last layer has a positive thickness always makes the solver fail, with ValueError unless the boundary is rigid. C71_equiv_noHalf_violated: Without a half space the equivalent-linear solver never succeeds."
  },
  {
   "property": "C72",
   "status": "proved",
   "theorems": [
    "Verif.C72_documented",
    "Verif.C72_xi_rho_positive",
    "Verif.C72_monotone"
   ],
   "note": "Proved for all inputs of the model."
  },
  {
   "property": "C73",
   "status": "partial",
   "theorems": [
    "Verif.C73_later_writes_partial",
    "Verif.C73_wrong_depth_violated",
    "Verif.C73_isolation_partial",
    "Verif.C73_isolation_violated"
   ],
   "note": "Proved on the part stated in the _partial theorem's comment. The code violates the full property: C73_wrong_depth_violated: C73 is violated by every object built without an added half space: if the caller afterwards changes the first thickness in their array from `t\u2080` to `t`, truncating at any depth below `t` gives a profile that is `t\u2080 - t` too deep, although the stored profile is unchanged. C73_isolation_violated: C73 fails without a half space: after the caller writes 1 into the first thickness of their array, truncating the (separately stored) profile at 5 m gives a total of 14 m."
  },
  {
   "property": "C74",
   "status": "partial",
   "theorems": [
    "Verif.C74_to_txt_partial",
    "Verif.C74_to_txt_default_violated",
    "Verif.C74_unit_outputs"
   ],
   "note": "Proved on the part stated in the _partial theorem's comment. The code violates the full property: C74_to_txt_default_violated: C74 fails for the default arguments: the default 5-tuple is rejected."
  },
  {
   "property": "C75",
   "status": "partial",
   "theorems": [
    "Verif.C75_save_curve_matrix_violated"
   ],
   "note": "Proved for all inputs of the model. The code violates the full property: C75_save_curve_matrix_violated: C75 fails: `get_curve_matrix(save_to_file=True, full_file_name=...)` writes no file."
  },
  {
   "property": "C76",
   "status": "partial",
   "theorems": [
    "Verif.C76_file_name_partial",
    "Verif.C76_file_name_violated",
    "Verif.C76_exact"
   ],
   "note": "Proved on the part stated in the _partial theorem's comment. The code violates the full property: C76_file_name_violated: C76 fails: the file `my_curve_A.txt` yields `HH_x_ve_A.txt`, losing part of the name."
  },
  {
   "property": "C77",
   "status": "partial",
   "theorems": [
    "Verif.C77_exact",
    "Verif.C77_mismatch_violated",
    "Verif.C77_unit_check_partial",
    "Verif.C77_violated"
   ],
   "note": "Proved on the part stated in the _partial theorem's comment. The code violates the full property: C77_mismatch_violated: C77 is violated by all other mismatches: a length or velocity unit for acceleration, and so on, is accepted. C77_violated: C77 fails: acceleration in m/s is accepted although the documentation says an exception is raised."
  },
  {
   "property": "C78",
   "status": "partial",
   "theorems": [
    "Verif.C78_exact",
    "Verif.C78_one_column_all_violated",
    "Verif.C78_time_partial",
    "Verif.C78_one_column_violated",
    "Verif.C78_offset_violated"
   ],
   "note": "Proved on the part stated in the _partial theorem's comment. The code violates the full property: C78_one_column_all_violated: C78 is violated by every one-column record: `time` starts at 0, the time column one interval later. C78_one_column_violated: C78 fails for one-column data: the time column is 1, 2, 3 while `time` is 0, 1, 2. C78_offset_violated: C78 fails for two-column data starting at another time."
  },
  {
   "property": "C79",
   "status": "proved",
   "theorems": [
    "Verif.C79_finite",
    "Verif.C79_nonzero",
    "Verif.C79_needs_damping"
   ],
   "note": "Proved for all inputs of the model."
  },
  {
   "property": "C80",
   "status": "partial",
   "theorems": [
    "Verif.C80_frequency_alignment_partial",
    "Verif.C80_frequency_alignment_violated",
    "Verif.C80_exact"
   ],
   "note": "Proved on the part stated in the _partial theorem's comment. The code violates the full property: C80_frequency_alignment_violated: The property fails: for this motion of three samples (`dt = 1`, so `df = 1/3`) and the transfer function 1 at 1/3 Hz and 2 at 2/3 Hz, the component of frequency 1/3 Hz is doubled."
  },
  {
   "property": "C81",
   "status": "proved",
   "theorems": [
    "Verif.C81_linear"
   ],
   "note": "Proved for all inputs of the model."
  },
  {
   "property": "C82",
   "status": "proved",
   "theorems": [
    "Verif.C82_site_response",
    "Verif.C82_other_boundary"
   ],
   "note": "Proved for all inputs of the model."
  },
  {
   "property": "C83",
   "status": "proved",
   "theorems": [
    "Verif.C83_histories"
   ],
   "note": "Proved for all inputs of the model."
  },
  {
   "property": "C84",
   "status": "proved",
   "theorems": [
    "Verif.C84_unit_convert"
   ],
   "note": "Proved for all inputs of the model."
  },
  {
   "property": "C85",
   "status": "proved",
   "theorems": [
    "Verif.C85_extrapolation"
   ],
   "note": "Proved for all inputs of the model."
  },
  {
   "property": "C86",
   "status": "partial",
   "theorems": [
    "Verif.C86_complex_table_partial",
    "Verif.C86_complex_table_violated",
    "Verif.C86_initial_climb_violated"
   ],
   "note": "Proved on the part stated in the _partial theorem's comment. The code violates the full property: C86_complex_table_violated: C86 fails for a phase that begins with a climb: the values 1, i, 1 are used as -1, i, 1 (the first value changes sign). C86_initial_climb_violated: C86 fails for every transfer function whose phase rises from the first sample to a peak at `p` and then falls: the sample before the peak is used with the phase -\u03c0, that is as `-\u2016z\u2016`, whatever it was, and the samples before it with phases on a line that starts at the phase of the last sample of all."
  },
  {
   "property": "C87",
   "status": "partial",
   "theorems": [
    "Verif.C87_profile_partial",
    "Verif.C87_density_violated",
    "Verif.C87_equiv_violated"
   ],
   "note": "Proved on the part stated in the _partial theorem's comment. The code violates the full property: C87_density_violated: Every run on a valid profile with a half space and a motion of at least three samples succeeds, and every reported density is wrong by a factor of 1000. C87_equiv_violated: The same factor in the results of the equivalent-linear runs."
  },
  {
   "property": "C88",
   "status": "partial",
   "theorems": [
    "Verif.C88_tf_partial",
    "Verif.C88_label_violated"
   ],
   "note": "Proved on the part stated in the _partial theorem's comment. The code violates the full property: C88_label_violated: For every uniform damped soil over a half space of the same material the transfer function reported for the frequency `(m + 1) df` is not the one at this frequency, for every `m` above 0: the reported amplification is always greater than the right one."
  },
  {
   "property": "C89",
   "status": "partial",
   "theorems": [
    "Verif.C89_lag_partial",
    "Verif.C89_lag_violated",
    "Verif.C89_lag_exact_violated"
   ],
   "note": "Proved on the part stated in the _partial theorem's comment. The code violates the full property: C89_lag_violated: The results are not the response for the moduli in force at the end of the iteration: here the response returns the moduli it was given. C89_lag_exact_violated: **When the results belong to the values in force at the end.** For every profile, table of curves, tolerance and number of iterations, and every response which can tell different moduli and damping ratios apart: the reported results are the response for the final moduli and damping ratios if and only if the last pass changed no modulus and no damping ratio at all. A change within the tolerance is enough to break it."
  },
  {
   "property": "C90",
   "status": "proved",
   "theorems": [
    "Verif.C90_linear",
    "Verif.C90_spectrum",
    "Verif.C90_elastic"
   ],
   "note": "Proved for all inputs of the model."
  },
  {
   "property": "C91",
   "status": "proved",
   "theorems": [
    "Verif.C91_linear"
   ],
   "note": "Proved for all inputs of the model."
  },
  {
   "property": "C92",
   "status": "partial",
   "theorems": [
    "Verif.C92_flat_partial",
    "Verif.C92_beyond_violated"
   ],
   "note": "Proved on the part stated in the _partial theorem's comment. The code violates the full property: C92_beyond_violated: Beyond the last strain of the table the modulus falls although G/Gmax is 1 throughout the table: the table is continued towards 1e-4 at strain 100."
  },
  {
   "property": "C93",
   "status": "partial",
   "theorems": [
    "Verif.C93_elements_partial",
    "Verif.C93_inputs_violated"
   ],
   "note": "Proved on the part stated in the _partial theorem's comment. The code violates the full property: C93_inputs_violated: The arrays given are changed: entries below the machine epsilon are replaced, and nothing else."
  },
  {
   "property": "C94",
   "status": "proved",
   "theorems": [
    "Verif.C94_series",
    "Verif.C94_scale",
    "Verif.C94_same_as_motion"
   ],
   "note": "Proved for all inputs of the model."
  },
  {
   "property": "C95",
   "status": "partial",
   "theorems": [
    "Verif.C95_d1234",
    "Verif.C95_d1234_bounded",
    "Verif.C95_d567",
    "Verif.C95_d89",
    "Verif.C95_defaults_violated",
    "Verif.C95_short",
    "Verif.C95_window",
    "Verif.C95_window_full"
   ],
   "note": "Proved for all inputs of the model. The code violates the full property: C95_defaults_violated: Without `fmin` or `fmax` the scores d8, d9 and d10 are never computed although both are optional."
  },
  {
   "property": "C96",
   "status": "partial",
   "theorems": [
    "Verif.C96_filtered_partial",
    "Verif.C96_unfiltered_violated",
    "Verif.C96_spectral"
   ],
   "note": "Proved on the part stated in the _partial theorem's comment. The code violates the full property: C96_unfiltered_violated: C96. Without baseline correction the frequency range is ignored: any two ranges give the same RMS scores."
  },
  {
   "property": "C97",
   "status": "partial",
   "theorems": [
    "Verif.C97_same",
    "Verif.C97_batch",
    "Verif.C97_others",
    "Verif.C97_objects_violated"
   ],
   "note": "Proved for all inputs of the model. The code violates the full property: C97_objects_violated: C97. The objects of the caller hold their scores only after a serial run: for any batch with a score that is new, the objects differ after the two runs."
  },
  {
   "property": "C98",
   "status": "partial",
   "theorems": [
    "Verif.C98_lengths_violated"
   ],
   "note": "Proved for all inputs of the model. The code violates the full property: C98_lengths_violated: C98. Records of different lengths (after the removal of 29 samples) are never scored: the branch which should bring them to one grid exchanges the arguments of the interpolation and keeps a pair."
  },
  {
   "property": "C99",
   "status": "proved",
   "theorems": [
    "Verif.C99_linear",
    "Verif.C99_equiv"
   ],
   "note": "Proved for all inputs of the model."
  },
  {
   "property": "C100",
   "status": "proved",
   "theorems": [
    "Verif.C100_d1234",
    "Verif.C100_d567",
    "Verif.C100_d89"
   ],
   "note": "Proved for all inputs of the model."
  },
  {
   "property": "C101",
   "status": "proved",
   "theorems": [
    "Verif.C101_table",
    "Verif.C101_weights",
    "Verif.C101_input",
    "Verif.C101_profile"
   ],
   "note": "Proved for all inputs of the model."
  },
  {
   "property": "C102",
   "status": "partial",
   "theorems": [
    "Verif.C102_results",
    "Verif.C102_tables",
    "Verif.C102_layers",
    "Verif.C102_one_layer_violated",
    "Verif.C102_nohalf_violated"
   ],
   "note": "Proved for all inputs of the model. The code violates the full property: C102_one_layer_violated: **C102 is violated** for a single soil layer that needs no subdivision: whatever the kernel writes, the run does not return, since a table with one column is read as a one-dimensional array. C102_nohalf_violated: **C102 is violated** for a profile without half space: if the kernel writes as many columns of accelerations as the control file announces (one more than the number of layers), the run does not return."
  },
  {
   "property": "C103",
   "status": "partial",
   "theorems": [
    "Verif.C103_linear",
    "Verif.C103_causal",
    "Verif.C103_rest",
    "Verif.C103_zero_phase_violated",
    "Verif.C103_delay_violated",
    "Verif.C103_transfer"
   ],
   "note": "Proved for all inputs of the model. The code violates the full property: C103_zero_phase_violated: The filters are documented to have zero phase, so that reversing the record reverses the answer. Among the filters the code can apply, only multiplications by a constant have this property. C103_delay_violated: It delays: the symmetric pulse 0 0 1 0 0 becomes 0 0 \u00bd \u00bd 0."
  },
  {
   "property": "C104",
   "status": "partial",
   "theorems": [
    "Verif.C104_log_constant",
    "Verif.C104_lin_interior_partial",
    "Verif.C104_lin_ends_violated"
   ],
   "note": "Proved on the part stated in the _partial theorem's comment. The code violates the full property: C104_lin_ends_violated: `lin_smooth` is documented to extend the signal by reflected copies so that the ends are kept; it does not. For every window of four or more samples, the first sample of a smoothed positive constant is too small."
  },
  {
   "property": "C105",
   "status": "partial",
   "theorems": [
    "Verif.C105_values_partial",
    "Verif.C105_succeeds",
    "Verif.C105_constant_violated",
    "Verif.C105_cosine_violated",
    "Verif.C105_ratio",
    "Verif.C105_multiple",
    "Verif.C105_smoothed",
    "Verif.C105_rejected"
   ],
   "note": "Proved on the part stated in the _partial theorem's comment. The code violates the full property: C105_constant_violated: A constant record of value `c`: the only coefficient that is not zero is labelled `1 / (N dt)` instead of 0 \u2014 and no row is labelled 0. C105_cosine_violated: A cosine of `m` cycles, below the Nyquist frequency: the row labelled with its frequency `m / (N dt)` holds 0, and its magnitude `N / 2` is in the row labelled `(m + 1) / (N dt)`."
  },
  {
   "property": "C106",
   "status": "partial",
   "theorems": [
    "Verif.C106_trend",
    "Verif.C106_axis",
    "Verif.C106_rejected",
    "Verif.C106_offset",
    "Verif.C106_scale",
    "Verif.C106_samples_partial",
    "Verif.C106_delay_violated",
    "Verif.C106_erased_violated",
    "Verif.C106_succeeds"
   ],
   "note": "Proved on the part stated in the _partial theorem's comment. The code violates the full property: C106_delay_violated: The answer is late by one sample: where no filtering takes place, sample `i` of the answer is sample `i - 1` of the record (less the pre-event mean). C106_erased_violated: A record that, after removal of the pre-event mean, changes sign exactly once is erased: the answer is zero throughout."
  },
  {
   "property": "C107",
   "status": "proved",
   "theorems": [
    "Verif.C107_polar",
    "Verif.C107_raw",
    "Verif.C107_one_column",
    "Verif.C107_interpolated",
    "Verif.C107_grid_ends",
    "Verif.C107_grid_points"
   ],
   "note": "Proved for all inputs of the model."
  },
  {
   "property": "C108",
   "status": "partial",
   "theorems": [
    "Verif.C108_depth_partial",
    "Verif.C108_depth_violated",
    "Verif.C108_shallow",
    "Verif.C108_default_z1",
    "Verif.C108_default_z1_mono"
   ],
   "note": "Proved on the part stated in the _partial theorem's comment. The code violates the full property: C108_depth_violated: On sediments deeper than 2.5 m the half space always lies above `z1`."
  },
  {
   "property": "C109",
   "status": "proved",
   "theorems": [
    "Verif.C109_terminates",
    "Verif.C109_result",
    "Verif.C109_iteration",
    "Verif.C109_immediate"
   ],
   "note": "Proved for all inputs of the model."
  },
  {
   "property": "C110",
   "status": "partial",
   "theorems": [
    "Verif.C110_compliance_partial",
    "Verif.C110_endless_violated",
    "Verif.C110_endless_cap_violated"
   ],
   "note": "Proved on the part stated in the _partial theorem's comment. The code violates the full property: C110_endless_violated: If the last velocity of the base profile is below 1000 / 1.05 m/s (e.g. `Vs_cap=900`, or `Vs_cap=False` on soft sediments), no randomised profile ever complies: the search never ends, whatever the random numbers. C110_endless_cap_violated: The base profile with `Vs_cap=900` is such a case, for every Vs30, depth above 2.5 m and random stream."
  },
  {
   "property": "C111",
   "status": "proved",
   "theorems": [
    "Verif.C111_tabulated",
    "Verif.C111_eight_points",
    "Verif.C111_convex",
    "Verif.C111_bounded",
    "Verif.C111_grid_point",
    "Verif.C111_amplification",
    "Verif.C111_phase",
    "Verif.C111_methods",
    "Verif.C111_both"
   ],
   "note": "Proved for all inputs of the model."
  },
  {
   "property": "C112",
   "status": "proved",
   "theorems": [
    "Verif.C112_construct",
    "Verif.C112_adjusted"
   ],
   "note": "Proved for all inputs of the model."
  },
  {
   "property": "C113",
   "status": "partial",
   "theorems": [
    "Verif.C113_real_phase_partial",
    "Verif.C113_real_phase_violated"
   ],
   "note": "Proved on the part stated in the _partial theorem's comment. The code violates the full property: C113_real_phase_violated: At every negative real value the phase is \u03c0, not zero."
  },
  {
   "property": "C114",
   "status": "proved",
   "theorems": [
    "Verif.C114_range",
    "Verif.C114_small_strain",
    "Verif.C114_confinement"
   ],
   "note": "Proved for all inputs of the model."
  },
  {
   "property": "C115",
   "status": "proved",
   "theorems": [
    "Verif.C115_mu",
    "Verif.C115_lengths",
    "Verif.C115_profile",
    "Verif.C115_rejects",
    "Verif.C115_fit"
   ],
   "note": "Proved for all inputs of the model."
  },
  {
   "property": "C116",
   "status": "partial",
   "theorems": [
    "Verif.C116_modulus_partial",
    "Verif.C116_violated"
   ],
   "note": "Proved on the part stated in the _partial theorem's comment. The code violates the full property: C116_violated: Without curves the density column is ignored: every layer lighter than 1650 kg/m\u00b3 gets a modulus above the one of the profile."
  },
  {
   "property": "C117",
   "status": "partial",
   "theorems": [
    "Verif.C117_layers_partial",
    "Verif.C117_violated"
   ],
   "note": "Proved on the part stated in the _partial theorem's comment. The code violates the full property: C117_violated: Without half space the deepest soil layer gets no parameters, and a strength profile with one entry per soil layer is refused."
  },
  {
   "property": "C118",
   "status": "partial",
   "theorems": [
    "Verif.C118_material",
    "Verif.C118_missing",
    "Verif.C118_own_curve_partial",
    "Verif.C118_two_columns",
    "Verif.C118_violated"
   ],
   "note": "Proved on the part stated in the _partial theorem's comment. The code violates the full property: C118_violated: Two layers of material 1: the object demands two curves, but the second one has no influence whatever it is, and both layers get the parameters of the first curve."
  },
  {
   "property": "C119",
   "status": "proved",
   "theorems": [
    "Verif.C119_hh",
    "Verif.C119_h4",
    "Verif.C119_bounds",
    "Verif.C119_success"
   ],
   "note": "Proved for all inputs of the model."
  },
  {
   "property": "C120",
   "status": "proved",
   "theorems": [
    "Verif.C120_mkz",
    "Verif.C120_hh"
   ],
   "note": "Proved for all inputs of the model."
  },
  {
   "property": "C121",
   "status": "partial",
   "theorems": [
    "Verif.C121_interpolated_exact",
    "Verif.C121_data_partial",
    "Verif.C121_violated"
   ],
   "note": "Proved on the part stated in the _partial theorem's comment. The code violates the full property: C121_violated: With interpolation and damping given as ratios, the fit works on the ratios as if they were percent: for every fit that can tell a curve from one a hundred times smaller the parameters are not those of the curve shown."
  },
  {
   "property": "C122",
   "status": "proved",
   "theorems": [
    "Verif.C122_modulus",
    "Verif.C122_mkz",
    "Verif.C122_hh",
    "Verif.C122_rejects"
   ],
   "note": "Proved for all inputs of the model."
  },
  {
   "property": "C123",
   "status": "proved",
   "theorems": [
    "Verif.C123_error",
    "Verif.C123_mkz",
    "Verif.C123_hh"
   ],
   "note": "Proved for all inputs of the model."
  },
  {
   "property": "C124",
   "status": "proved",
   "theorems": [
    "Verif.C124_reconstruct",
    "Verif.C124_removes",
    "Verif.C124_linear",
    "Verif.C124_offset",
    "Verif.C124_mean",
    "Verif.C124_scaled",
    "Verif.C124_shift",
    "Verif.C124_rejects"
   ],
   "note": "Proved for all inputs of the model."
  },
  {
   "property": "C125",
   "status": "proved",
   "theorems": [
    "Verif.C125_profile",
    "Verif.C125_rejects",
    "Verif.C125_again"
   ],
   "note": "Proved for all inputs of the model."
  },
  {
   "property": "C126",
   "status": "partial",
   "theorems": [
    "Verif.C126_filter",
    "Verif.C126_independent_partial",
    "Verif.C126_shared_violated",
    "Verif.C126_baseline",
    "Verif.C126_roundtrip_partial",
    "Verif.C126_amplify",
    "Verif.C126_rejects",
    "Verif.C126_tf_taper",
    "Verif.C126_tf_roundtrip"
   ],
   "note": "Proved on the part stated in the _partial theorem's comment. The code violates the full property: C126_shared_violated: Requests that the filter answers by returning the array passed in (high-pass at or below 0, low-pass at or above the Nyquist frequency) give a motion which shares its acceleration with the original: saving the \"filtered\" motion in g divides the accelerations of the original by 9.81 as well."
  },
  {
   "property": "C127",
   "status": "partial",
   "theorems": [
    "Verif.C127_grid",
    "Verif.C127_rejects",
    "Verif.C127_kept",
    "Verif.C127_held",
    "Verif.C127_first_sample_violated",
    "Verif.C127_ratio",
    "Verif.C127_multiple",
    "Verif.C127_swapped",
    "Verif.C127_short_violated",
    "Verif.C127_succeeds"
   ],
   "note": "Proved for all inputs of the model. The code violates the full property: C127_first_sample_violated: A record starting at time 0 loses its first sample: two records which differ in the acceleration at time 0 only give the same aligned records. C127_short_violated: With smoothing (the default), records that have fewer than 29 samples at the common times cannot be compared: the smoothing window of 15 points is longer than the spectrum."
  },
  {
   "property": "C128",
   "status": "partial",
   "theorems": [
    "Verif.C128_shape",
    "Verif.C128_accepts",
    "Verif.C128_accepts_wide",
    "Verif.C128_scale",
    "Verif.C128_monotone",
    "Verif.C128_interior_partial",
    "Verif.C128_low_end",
    "Verif.C128_end_violated",
    "Verif.C128_index_violated"
   ],
   "note": "Proved on the part stated in the _partial theorem's comment. The code violates the full property: C128_end_violated: The folding at the upper end is wrong: it overwrites instead of adding. The smoothed value one window width below the end is 0 for every spectrum, however large its values. C128_index_violated: A narrow window (at most two steps on each side) and a long spectrum: an index runs beyond the work arrays."
  },
  {
   "property": "C129",
   "status": "partial",
   "theorems": [
    "Verif.C129_baseline",
    "Verif.C129_spectrum",
    "Verif.C129_homogeneous",
    "Verif.C129_axis",
    "Verif.C129_samples",
    "Verif.C129_d1234",
    "Verif.C129_d567",
    "Verif.C129_d89_partial",
    "Verif.C129_fourier_violated"
   ],
   "note": "Proved on the part stated in the _partial theorem's comment. The code violates the full property: C129_fourier_violated: Score 9 of a multiple is not the score of its factor as soon as the scored range reaches the frequency one window width below the end of the spectrum (as with the default `fmax`): the smoothed spectra are zero there, which counts as perfect agreement."
  },
  {
   "property": "C130",
   "status": "partial",
   "theorems": [
    "Verif.C130_base",
    "Verif.C130_errors",
    "Verif.C130_equiv",
    "Verif.C130_nonlinear",
    "Verif.C130_deleted_violated"
   ],
   "note": "Proved for all inputs of the model. The code violates the full property: C130_deleted_violated: The count that is checked is not the number of parameter sets: after a slice of the parameters has been deleted, a nonlinear simulation is still made although no set is left at all."
  },
  {
   "property": "C131",
   "status": "partial",
   "theorems": [
    "Verif.C131_resolution",
    "Verif.C131_tables",
    "Verif.C131_waves",
    "Verif.C131_rejects",
    "Verif.C131_f0_partial",
    "Verif.C131_top_violated",
    "Verif.C131_subdivision",
    "Verif.C131_one_layer"
   ],
   "note": "Proved on the part stated in the _partial theorem's comment. The code violates the full property: C131_top_violated: C131, violated: the default table is asked for up to 30 Hz in steps of 0.05 Hz, and 30 is 600 times 0.05; but the table of a valid profile has 599 frequencies and its last is below 29.951 Hz, because the double 0.05 is a little more than 1/20. A fundamental frequency of 30 Hz is never returned."
  },
  {
   "property": "C132",
   "status": "partial",
   "theorems": [
    "Verif.C132_construct",
    "Verif.C132_objects",
    "Verif.C132_pair_roundtrip",
    "Verif.C132_matrix_roundtrip",
    "Verif.C132_lengths_violated",
    "Verif.C132_late_check_violated",
    "Verif.C132_resample",
    "Verif.C132_matrix_partial",
    "Verif.C132_zero_strain_violated",
    "Verif.C132_file",
    "Verif.C132_one_row_violated"
   ],
   "note": "Proved on the part stated in the _partial theorem's comment. The code violates the full property: C132_lengths_violated: C132 fails when the longest G/Gmax curve and the longest damping curve have different numbers of points: the pair is accepted but its matrix cannot be made (ValueError), although every curve is brought to the longest one of its own kind. C132_late_check_violated: C132 fails for values out of range: the constructor accepts a matrix whose curves are not valid (`get_curve_matrix` returns it), and only asking for the curve objects raises ValueError. C132_zero_strain_violated: C132 fails for a curve that starts at strain zero (a valid strain of a curve object) and has fewer points than the longest curve: the logarithmic resampling raises ValueError. C132_one_row_violated: C132 fails for files with a single row (curves with one point): the file is read as a one-dimensional array and TypeError is raised, although the same curves can be put into a container as arrays."
  },
  {
   "property": "C133",
   "status": "partial",
   "theorems": [
    "Verif.C133_array",
    "Verif.C133_rejects",
    "Verif.C133_list",
    "Verif.C133_file",
    "Verif.C133_save_load_partial",
    "Verif.C133_one_layer_violated",
    "Verif.C133_no_layers_violated",
    "Verif.C133_h4_file_violated"
   ],
   "note": "Proved on the part stated in the _partial theorem's comment. The code violates the full property: C133_one_layer_violated: C133 fails for one layer: the file that `save_txt` writes for a container with a single layer has one column, is read as a one-dimensional array, and cannot be loaded again (TypeError). C133_no_layers_violated: C133 fails for no layers, too: a container that was emptied (`del`, or an empty slice) saves an empty file without complaint, which cannot be loaded again (TypeError), although the container itself can be made from the empty list. C133_h4_file_violated: C133 fails for parameter files in the documented H4 layout (`gamma_ref`, 0, `s`, `beta`, as written by `serialize_params_to_array(\u2026, to_files=True)` and as in the \"H4_x_SITE_NAME.txt\" files): `MKZ_Param_Multi_Layer(filename)` reads them as `gamma_ref, s, beta, Gmax`. Every layer gets the exponent 0, and its modulus reduction is the same constant at every strain, whatever `gamma_ref` and `beta` are."
  },
  {
   "property": "C134",
   "status": "proved",
   "theorems": [
    "Verif.C134_best",
    "Verif.C134_bounds",
    "Verif.C134_more_generations",
    "Verif.C134_succeeds",
    "Verif.C134_rejects",
    "Verif.C134_optimiser",
    "Verif.C134_hh"
   ],
   "note": "Proved for all inputs of the model."
  },
  {
   "property": "C135",
   "status": "partial",
   "theorems": [
    "Verif.C135_layers",
    "Verif.C135_parallel",
    "Verif.C135_succeeds",
    "Verif.C135_no_name",
    "Verif.C135_written",
    "Verif.C135_reload_partial",
    "Verif.C135_one_curve_violated"
   ],
   "note": "Proved on the part stated in the _partial theorem's comment. The code violates the full property: C135_one_curve_violated: C135 fails for one curve: the file has one column and cannot be loaded (TypeError)."
  },
  {
   "property": "C136",
   "status": "partial",
   "theorems": [
    "Verif.C136_shrinks",
    "Verif.C136_ends",
    "Verif.C136_middle",
    "Verif.C136_symmetric",
    "Verif.C136_linear",
    "Verif.C136_amplify",
    "Verif.C136_two_columns_violated",
    "Verif.C136_rejects"
   ],
   "note": "Proved for all inputs of the model. The code violates the full property: C136_two_columns_violated: Two-column records cannot be tapered, although the documentation allows them: TypeError for every record."
  },
  {
   "property": "C137",
   "status": "partial",
   "theorems": [
    "Verif.C137_rms_bounds",
    "Verif.C137_rms_partial",
    "Verif.C137_rms_veloc_violated",
    "Verif.C137_rms_displ_violated",
    "Verif.C137_arias",
    "Verif.C137_fourier_partial",
    "Verif.C137_fourier_bins_violated",
    "Verif.C137_fourier_short_violated",
    "Verif.C137_parseval",
    "Verif.C137_response",
    "Verif.C137_response_succeeds",
    "Verif.C137_response_scaling",
    "Verif.C137_response_rejects"
   ],
   "note": "Proved on the part stated in the _partial theorem's comment. The code violates the full property: C137_rms_veloc_violated: For a motion given as velocity (uniform time axis), `rms_veloc` is the root mean square of the velocity minus its first value; it is not the root mean square of `veloc`, for instance when the velocity is constant and not zero. C137_rms_displ_violated: For a motion given as displacement (uniform time axis), `rms_veloc` is the root mean square of its velocity, but `rms_displ` is that of the displacement minus its first value, which differs for instance for a displacement that ends everywhere where it starts, away from zero. C137_fourier_bins_violated: No row of a Fourier spectrum has frequency zero: the mean of the record (the coefficient of zero cycles) is reported at the frequency of one cycle over the record. C137_fourier_short_violated: A motion of two samples has a double-sided spectrum, but its single-sided spectrum is rejected with a ValueError that asks for the frequency interval."
  },
  {
   "property": "C138",
   "status": "partial",
   "theorems": [
    "Verif.C138_flags",
    "Verif.C138_at_least_two",
    "Verif.C138_two_column",
    "Verif.C138_profile_same",
    "Verif.C138_profile",
    "Verif.C138_motion",
    "Verif.C138_motion_rejects",
    "Verif.C138_motion_accepts",
    "Verif.C138_argument_exact",
    "Verif.C138_rejected_argument_violated",
    "Verif.C138_rejected_array_violated",
    "Verif.C138_curve",
    "Verif.C138_curve_unchecked",
    "Verif.C138_scores",
    "Verif.C138_matrix_violated",
    "Verif.C138_spectrum_violated",
    "Verif.C138_length_or_extend"
   ],
   "note": "Proved for all inputs of the model. The code violates the full property: C138_rejected_argument_violated: The property fails for every array of the kind: a record of two columns with a number that is not finite in it, in a unit that is not an SI one, is rejected, and yet every non-zero value of its second column means that the caller's array has been changed. C138_rejected_array_violated: The property fails for the array passed in: a two-column record with a NaN, given in g, is rejected, but its accelerations have been multiplied by 9.81 already. C138_matrix_violated: The property fails for curve matrices: every two-dimensional array whose number of columns is a multiple of four is kept by `Multiple_GGmax_Damping_Curves(data=\u2026)` and handed out again, with NaN elements (such as `np.genfromtxt` makes from unreadable entries) and whatever its type. C138_spectrum_violated: The property fails for spectra: a two-column array of at least two rows is kept whatever its elements are."
  },
  {
   "property": "C139",
   "status": "proved",
   "theorems": [
    "Verif.C139_amplify",
    "Verif.C139_transfer_function",
    "Verif.C139_runs",
    "Verif.C139_roundtrip_odd",
    "Verif.C139_roundtrip",
    "Verif.C139_linear",
    "Verif.C139_subdivision"
   ],
   "note": "Proved for all inputs of the model."
  },
  {
   "property": "C140",
   "status": "partial",
   "theorems": [
    "Verif.C140_accepted_partial",
    "Verif.C140_maxima_violated",
    "Verif.C140_class"
   ],
   "note": "Proved on the part stated in the _partial theorem's comment. The code violates the full property: C140_maxima_violated: The property fails for maxima: `max_a_v_d` given without `max_strain_stress` (or the other way round) is dropped without a message, whatever it is, although the attribute is documented to be the argument."
  },
  {
   "property": "C141",
   "status": "partial",
   "theorems": [
    "Verif.C141_points",
    "Verif.C141_graph",
    "Verif.C141_descending_partial",
    "Verif.C141_descending_exact",
    "Verif.C141_descending_violated",
    "Verif.C141_empty"
   ],
   "note": "Proved on the part stated in the _partial theorem's comment. The code violates the full property: C141_descending_violated: The property fails for every `max_depth` above the top of the last layer (other than 0): the line goes back up from there, across depths of other velocities."
  },
  {
   "property": "C142",
   "status": "partial",
   "theorems": [
    "Verif.C142_thin_layer_general",
    "Verif.C142_representable",
    "Verif.C142_sorted",
    "Verif.C142_thicknesses",
    "Verif.C142_no_halfspace",
    "Verif.C142_roundtrip_partial",
    "Verif.C142_roundtrip_violated",
    "Verif.C142_thin_layer_violated"
   ],
   "note": "Proved on the part stated in the _partial theorem's comment. The code violates the full property: C142_roundtrip_violated: C142, violated: layers of 0.1 m and 0.2 m on a half-space turned into depths and back: the second thickness is not 0.2 m. C142_thin_layer_violated: C142, violated: a layer of positive thickness can disappear: below 4096 m, the top and bottom of a layer of 10^-13 m are the same number, so that the way back gives thickness 0."
  },
  {
   "property": "C143",
   "status": "partial",
   "theorems": [
    "Verif.C143_exact_partial",
    "Verif.C143_decimal_partial",
    "Verif.C143_violated",
    "Verif.C143_monotone"
   ],
   "note": "Proved on the part stated in the _partial theorem's comment. The code violates the full property: C143_violated: C143, violated: with a step of 0.1 s the window from 0 to 0.3 s has two samples instead of three, and with a step of 0.005 s the window from 0 to 0.145 s has 28 instead of 29."
  },
  {
   "property": "C144",
   "status": "partial",
   "theorems": [
    "Verif.C144_cover",
    "Verif.C144_exact_partial",
    "Verif.C144_decimal_partial",
    "Verif.C144_violated"
   ],
   "note": "Proved on the part stated in the _partial theorem's comment. The code violates the full property: C144_violated: C144, violated: a profile of three layers of 3.2 m on a half-space, sampled again with layers of 3.2 m, gets four layers; one of 0.1 m and 1.1 m, sampled with layers of 0.4 m, gets four instead of three."
  },
  {
   "property": "C145",
   "status": "partial",
   "theorems": [
    "Verif.C145_decimal_exact",
    "Verif.C145_exact_partial",
    "Verif.C145_decimal_partial",
    "Verif.C145_within",
    "Verif.C145_default_violated"
   ],
   "note": "Proved on the part stated in the _partial theorem's comment. The code violates the full property: C145_default_violated: C145, violated: with the default resolution 0.05 Hz and maximum 30 Hz there are 599 frequencies, and the last is below 29.96 Hz."
  },
  {
   "property": "C146",
   "status": "partial",
   "theorems": [
    "Verif.C146_order",
    "Verif.C146_target_partial",
    "Verif.C146_violated"
   ],
   "note": "Proved on the part stated in the _partial theorem's comment. The code violates the full property: C146_violated: C146, violated: a record with peak 0.1 m/s/s scaled to 0.3 g has a peak below 0.3 g."
  },
  {
   "property": "C147",
   "status": "proved",
   "theorems": [
    "Verif.C147_arias"
   ],
   "note": "Proved for all inputs of the model."
  },
  {
   "property": "C148",
   "status": "partial",
   "theorems": [
    "Verif.C148_grid_partial",
    "Verif.C148_violated"
   ],
   "note": "Proved on the part stated in the _partial theorem's comment. The code violates the full property: C148_violated: C148, violated: for `z1` = 3 m the last depth is exactly `z1 - thk_addl_layer`, which `np.arange` is to leave out, and there are seven depths instead of six."
  },
  {
   "property": "C149",
   "status": "partial",
   "theorems": [
    "Verif.C149_roundtrip_partial",
    "Verif.C149_violated"
   ],
   "note": "Proved on the part stated in the _partial theorem's comment. The code violates the full property: C149_violated: C149, violated: an acceleration of 0.23 cm/s/s read and saved again is not 0.23 cm/s/s."
  },
  {
   "property": "C150",
   "status": "partial",
   "theorems": [
    "Verif.C150_ends",
    "Verif.C150_one_side_partial",
    "Verif.C150_error_partial",
    "Verif.C150_below_zero_violated"
   ],
   "note": "Proved on the part stated in the _partial theorem's comment. The code violates the full property: C150_below_zero_violated: C150, violated: this curve has values between 0 and 1 and is accepted as it is, but sampled at 11 strains from 0.1 % to 1 % one of its values is negative, and the constructor of `GGmax_Curve` raises ValueError."
  },
  {
   "property": "C151",
   "status": "partial",
   "theorems": [
    "Verif.C151_unique",
    "Verif.C151_equation",
    "Verif.C151_increasing",
    "Verif.C151_two",
    "Verif.C151_retry_partial",
    "Verif.C151_retry_violated",
    "Verif.C151_layering",
    "Verif.C151_toro"
   ],
   "note": "Proved on the part stated in the _partial theorem's comment. The code violates the full property: C151_retry_violated: C151, violated: \"keeps trying until fsolve() properly converges\": if the first call does not converge, all further calls, made with the same arguments, do not either, and the loop never ends."
  },
  {
   "property": "C152",
   "status": "partial",
   "theorems": [
    "Verif.C152_cubic",
    "Verif.C152_unit_variance",
    "Verif.C152_table",
    "Verif.C152_sigma_partial",
    "Verif.C152_negative_violated"
   ],
   "note": "Proved on the part stated in the _partial theorem's comment. The code violates the full property: C152_negative_violated: C152, violated: from 1600 m/s on, which profiles with a larger `Vs_cap` contain, the \"standard deviation\" is negative and falls without bound."
  },
  {
   "property": "C153",
   "status": "partial",
   "theorems": [
    "Verif.C153_curves",
    "Verif.C153_extra_columns_violated",
    "Verif.C153_identify_partial",
    "Verif.C153_identify_violated"
   ],
   "note": "Proved on the part stated in the _partial theorem's comment. The code violates the full property: C153_extra_columns_violated: C153, violated: the number of columns is not checked: with one to three columns too many, `fit_MKZ` returns a matrix with as many columns, the last of which are all zero. C153_identify_violated: C153, violated: the data do not determine the parameters: `2 gamma_ref` and `2^s beta` give the same curve, also inside the bounds of the fit. `gamma_ref` is therefore not the reference strain of the soil, and fits of the same data need not agree."
  },
  {
   "property": "C154",
   "status": "partial",
   "theorems": [
    "Verif.C154_stress_exact",
    "Verif.C154_motion_partial",
    "Verif.C154_motion_iff",
    "Verif.C154_zero_motion_violated",
    "Verif.C154_save_partial",
    "Verif.C154_save_violated",
    "Verif.C154_convert_violated",
    "Verif.C154_stress_curve_violated",
    "Verif.C154_curve",
    "Verif.C154_profile_violated",
    "Verif.C154_two_columns",
    "Verif.C154_stress_partial",
    "Verif.C154_stress_violated"
   ],
   "note": "Proved on the part stated in the _partial theorem's comment. The code violates the full property: C154_zero_motion_violated: C154 fails for every integer record with values below 100 gal: the constructed motion is at rest, with a peak ground acceleration of 0, and no error or warning is given. C154_save_violated: C154 fails when saving in g: accelerations of less than 9.81 m/s/s, given as integers, are all written as 0. C154_convert_violated: The other unit conversion, on a copy: exact in gal, TypeError in g for integer-valued motions, where the same motion with real numbers is converted. C154_stress_curve_violated: C154 fails for stress curves given as integers in Pa, MPa or GPa: TypeError, after the strain column of the caller has been converted. C154_profile_violated: C154 fails for five-column profiles given as integers with damping in percent or density in g/cm^3: TypeError. For all other arguments, and for two columns, integers and real numbers give the same profile. C154_stress_violated: C154 fails for the vertical stress: a layer of 1 m with a density of 1001 kg/m^3 has a stress of 4909.905 Pa at its middle, and 4909 Pa if its thickness is given as an integer."
  },
  {
   "property": "C155",
   "status": "partial",
   "theorems": [
    "Verif.C155_exact",
    "Verif.C155_near_end_violated",
    "Verif.C155_growing_violated",
    "Verif.C155_short",
    "Verif.C155_drawn_partial",
    "Verif.C155_velocity_exact",
    "Verif.C155_accel_motion",
    "Verif.C155_velocity_violated",
    "Verif.C155_cm",
    "Verif.C155_g_violated",
    "Verif.C155_unknown_unit"
   ],
   "note": "Proved on the part stated in the _partial theorem's comment. The code violates the full property: C155_near_end_violated: C155 fails: a record whose first peak is within a fortieth of the record length of its end cannot be drawn: the annotation is looked up one past the end of the time column, and IndexError is raised after the figure has been made. C155_growing_violated: In particular, a motion of more than twenty samples that grows until its last sample cannot be drawn. C155_velocity_violated: C155 fails for motions given as velocities that do not start from zero: what is drawn as velocity is not the velocity of the object, but the velocity less its first value. C155_g_violated: C155 fails for the documented unit 'g': it is converted to g and then refused with ValueError, after a figure has been made."
  },
  {
   "property": "C156",
   "status": "partial",
   "theorems": [
    "Verif.C156_curve",
    "Verif.C156_spectrum",
    "Verif.C156_unequal",
    "Verif.C156_exact",
    "Verif.C156_axes_only_violated",
    "Verif.C156_multi",
    "Verif.C156_motion_violated"
   ],
   "note": "Proved for all inputs of the model. The code violates the full property: C156_axes_only_violated: C156 fails when axes are passed in without their figure: a new figure without any axes is made and returned, and the returned axes are those of another figure. C156_motion_violated: C156 fails for motions: axes that are passed in are removed from their figure, nothing is drawn on them, and they are none of the axes returned."
  },
  {
   "property": "C157",
   "status": "partial",
   "theorems": [
    "Verif.C157_multi_violated",
    "Verif.C157_param_violated",
    "Verif.C157_curve_partial",
    "Verif.C157_vs_exact",
    "Verif.C157_vs_title_violated",
    "Verif.C157_svm_title_violated",
    "Verif.C157_line",
    "Verif.C157_once",
    "Verif.C157_adjust_exact",
    "Verif.C157_adjust_violated",
    "Verif.C157_smooth_exact"
   ],
   "note": "Proved on the part stated in the _partial theorem's comment. The code violates the full property: C157_multi_violated: C157 fails for several curves: the keyword arguments have no influence on what is drawn; every line is drawn without options. C157_param_violated: C157 fails for the curves of a parameter set: the two lines are drawn without the options. C157_vs_title_violated: C157 fails for titles of profiles: a profile that was read from a file cannot be drawn with a title, which would be passed twice (TypeError). C157_svm_title_violated: C157 fails for the sediment velocity model: no title can be given (TypeError). C157_adjust_violated: C157 fails for the site-effect adjustment: its keyword arguments are documented as those of `matplotlib.pyplot.plot`, but each of them other than `dpi` (for instance `color`) raises TypeError."
  },
  {
   "property": "C158",
   "status": "partial",
   "theorems": [
    "Verif.C158_profile_arg_partial",
    "Verif.C158_profile_empty_violated",
    "Verif.C158_profile",
    "Verif.C158_curve",
    "Verif.C158_matrix",
    "Verif.C158_curve_sets",
    "Verif.C158_containers",
    "Verif.C158_parameters",
    "Verif.C158_simulations",
    "Verif.C158_batch",
    "Verif.C158_read",
    "Verif.C158_motion_partial",
    "Verif.C158_motion_short_violated",
    "Verif.C158_unit",
    "Verif.C158_truncate_partial",
    "Verif.C158_not_an_array",
    "Verif.C158_curve_matrix",
    "Verif.C158_profile_shape",
    "Verif.C158_spectrum",
    "Verif.C158_spectrum_no_points",
    "Verif.C158_site_factors",
    "Verif.C158_grid",
    "Verif.C158_methods",
    "Verif.C158_discretize",
    "Verif.C158_depths",
    "Verif.C158_query",
    "Verif.C158_thickness",
    "Verif.C158_ggmax",
    "Verif.C158_print_scores_violated",
    "Verif.C158_gof_range",
    "Verif.C158_calibration",
    "Verif.C158_smoothing",
    "Verif.C158_results_partial",
    "Verif.C158_results_violated",
    "Verif.C158_one_step_violated",
    "Verif.C158_tables",
    "Verif.C158_sf_query"
   ],
   "note": "Proved on the part stated in the _partial theorem's comment. The code violates the full property: C158_profile_empty_violated: C158 fails for arrays without rows: IndexError, which is not documented. C158_motion_short_violated: C158 fails for motions of less than two samples: IndexError (or, for a single row without a time interval, a ValueError about the interval). C158_print_scores_violated: Printing a score object without any scores raises ZeroDivisionError, exactly then: `print` of a fresh object fails. C158_results_violated: An array of accelerations of the wrong shape raises AssertionError, which no docstring names. C158_one_step_violated: A kernel run of one time step (tables of one row, read as 1D arrays): ValueError if there are at least two interfaces, and IndexError \u2014 named by no docstring \u2014 if there is one."
  },
  {
   "property": "C159",
   "status": "partial",
   "theorems": [
    "Verif.C159_profiles",
    "Verif.C159_two_figures",
    "Verif.C159_motions",
    "Verif.C159_transfer_partial",
    "Verif.C159_smoothed_violated",
    "Verif.C159_smoothed_alone_violated",
    "Verif.C159_times_violated",
    "Verif.C159_rejects"
   ],
   "note": "Proved on the part stated in the _partial theorem's comment. The code violates the full property: C159_smoothed_violated: C159 fails for smoothed transfer functions on other frequencies: their amplitudes are drawn at the frequencies of the unsmoothed one if there are as many of them, and ValueError is raised otherwise. C159_smoothed_alone_violated: Without the unsmoothed transfer function the smoothed one is not drawn. C159_times_violated: C159 fails for records whose times differ by less than the tolerance: the output is drawn at the times of the input."
  },
  {
   "property": "C160",
   "status": "partial",
   "theorems": [
    "Verif.C160_own",
    "Verif.C160_max_depth_exact",
    "Verif.C160_query_depth",
    "Verif.C160_query_thickness",
    "Verif.C160_no_depths_violated",
    "Verif.C160_over_exact",
    "Verif.C160_smooth_exact",
    "Verif.C160_profile_drawn",
    "Verif.C160_query_profile_violated",
    "Verif.C160_thickness_profile_exact"
   ],
   "note": "Proved for all inputs of the model. The code violates the full property: C160_no_depths_violated: The figure of a query at no depths cannot be drawn, although the query itself has an (empty) result. C160_query_profile_violated: The figure of a query that returns a profile cuts off the profile that was queried: for every profile and every single depth less than half of that to which the profile is drawn."
  },
  {
   "property": "C161",
   "status": "partial",
   "theorems": [
    "Verif.C161_arguments",
    "Verif.C161_count",
    "Verif.C161_strains",
    "Verif.C161_drawn",
    "Verif.C161_grid",
    "Verif.C161_parallel_partial",
    "Verif.C161_serial",
    "Verif.C161_serial_violated",
    "Verif.C161_single"
   ],
   "note": "Proved on the part stated in the _partial theorem's comment. The code violates the full property: C161_serial_violated: The figure of serial fits does not show the curves that were given: wherever a curve has small-strain damping, the panel shows another curve."
  },
  {
   "property": "C162",
   "status": "partial",
   "theorems": [
    "Verif.C162_written",
    "Verif.C162_order",
    "Verif.C162_exact",
    "Verif.C162_digits_lost_violated",
    "Verif.C162_default_format",
    "Verif.C162_profile"
   ],
   "note": "Proved for all inputs of the model. The code violates the full property: C162_digits_lost_violated: A number that has more digits than are written does not come back: the table read differs from the one saved. (The files of calibrated parameters and of simulation results have six digits, those of `save_txt` five.)"
  },
  {
   "property": "C163",
   "status": "partial",
   "theorems": [
    "Verif.C163_formats",
    "Verif.C163_written",
    "Verif.C163_order",
    "Verif.C163_read",
    "Verif.C163_exact",
    "Verif.C163_repeated_times_violated",
    "Verif.C163_200_hertz_violated",
    "Verif.C163_zero_step_violated",
    "Verif.C163_zero_step_when"
   ],
   "note": "Proved for all inputs of the model. The code violates the full property: C163_repeated_times_violated: The file of a long record holds the same time more than once: within a decade of the time axis whose fifth digit is larger than the time step, some two consecutive samples get the same written time. `e` is the decade (2: from 100 s to 1000 s, where the fifth digit is 0.01 s), `n + 1` the number of samples from the `j`-th on that lie in it. C163_200_hertz_violated: A record from 0 s sampled at 200 Hz and longer than 100.015 s is written with repeated times. C163_zero_step_violated: If the first two samples get the same written time, the motion read from the file has the time step 0 and no velocity and no displacement at any time, whatever the accelerations."
  },
  {
   "property": "C164",
   "status": "partial",
   "theorems": [
    "Verif.C164_places",
    "Verif.C164_written",
    "Verif.C164_accepted_exact",
    "Verif.C164_thin_layer_violated",
    "Verif.C164_read",
    "Verif.C164_exact"
   ],
   "note": "Proved for all inputs of the model. The code violates the full property: C164_thin_layer_violated: A profile with a layer of at most 5 mm above its last row cannot be read from its own file: the thickness is written as 0.00, and reading raises ValueError."
  },
  {
   "property": "C165",
   "status": "partial",
   "theorems": [
    "Verif.C165_profile",
    "Verif.C165_motion",
    "Verif.C165_thin_layer_violated",
    "Verif.C165_spectrum",
    "Verif.C165_interval_violated"
   ],
   "note": "Proved for all inputs of the model. The code violates the full property: C165_thin_layer_violated: C165 fails for thin layers: the line of a layer shows a thickness of 0.00 (as that of a half-space does) exactly if the layer is not thicker than 5 mm. C165_interval_violated: C165 fails for fine spectra: the interval is shown as 0.00 Hz exactly if it is at most 5 mHz, as for the Fourier spectrum of every record of 200 s or more."
  },
  {
   "property": "C166",
   "status": "partial",
   "theorems": [
    "Verif.C166_lines",
    "Verif.C166_label_partial",
    "Verif.C166_label_violated",
    "Verif.C166_labels_differ",
    "Verif.C166_title"
   ],
   "note": "Proved on the part stated in the _partial theorem's comment. The code violates the full property: C166_label_violated: C166 fails for the tabulated 1.25 g: its four lines are labelled 1.2 g."
  },
  {
   "property": "C167",
   "status": "proved",
   "theorems": [
    "Verif.C167_panels",
    "Verif.C167_texts"
   ],
   "note": "Proved for all inputs of the model."
  },
  {
   "property": "C168",
   "status": "partial",
   "theorems": [
    "Verif.C168_table",
    "Verif.C168_column",
    "Verif.C168_motion_partial",
    "Verif.C168_motion_column",
    "Verif.C168_motion_rejects",
    "Verif.C168_motion_header_violated",
    "Verif.C168_nan_row_violated",
    "Verif.C168_matrix_exact",
    "Verif.C168_one_number",
    "Verif.C168_profile",
    "Verif.C168_profile_exact",
    "Verif.C168_one_layer_violated"
   ],
   "note": "Proved on the part stated in the _partial theorem's comment. The code violates the full property: C168_motion_header_violated: C168 fails for motions with header lines: `Ground_Motion` takes keyword arguments for `genfromtxt` and does not hand them on. Every file with header lines is rejected though `skip_header` is given, while the array of its numbers is accepted. C168_nan_row_violated: C168 fails for spectra and matrices of curves: a header line becomes a row of NaN, which nothing refuses. C168_one_layer_violated: C168 fails for a profile of one layer (a half-space): its array is accepted, the file of the same numbers is not, because `genfromtxt` drops the dimension of length one."
  },
  {
   "property": "C169",
   "status": "partial",
   "theorems": [
    "Verif.C169_stationary",
    "Verif.C169_from_rest",
    "Verif.C169_lowpass",
    "Verif.C169_highpass",
    "Verif.C169_half_power",
    "Verif.C169_bandpass",
    "Verif.C169_bandstop",
    "Verif.C169_near_nyquist_violated",
    "Verif.C169_near_zero_violated",
    "Verif.C169_design_exists"
   ],
   "note": "Proved for all inputs of the model. The code violates the full property: C169_near_nyquist_violated: Two-sided requests whose upper cut-off frequency is within one ten-thousandth of the Nyquist frequency lose that cut-off: the band-pass filter leaves more than half of the power there, whatever the lower cut-off. C169_near_zero_violated: Two-sided requests whose lower cut-off frequency is within the first frequency bin (one over the duration) lose that one."
  },
  {
   "property": "C170",
   "status": "partial",
   "theorems": [
    "Verif.C170_figure",
    "Verif.C170_roles",
    "Verif.C170_type",
    "Verif.C170_when",
    "Verif.C170_exchanged",
    "Verif.C170_short_violated",
    "Verif.C170_first_sample_violated"
   ],
   "note": "Proved for all inputs of the model. The code violates the full property: C170_short_violated: C170 fails for short records: with the default smoothing there is no figure if the common times are fewer than 29. C170_first_sample_violated: C170 fails for records that start at time 0: their first sample is not shown. Two records that differ in the acceleration at time 0 only give the same figure, in either role."
  },
  {
   "property": "C171",
   "status": "partial",
   "theorems": [
    "Verif.C171_same_result",
    "Verif.C171_figure_partial",
    "Verif.C171_coincide_exact",
    "Verif.C171_times_violated"
   ],
   "note": "Proved on the part stated in the _partial theorem's comment. The code violates the full property: C171_times_violated: C171 fails for records that do not start at time 0 (all one-column records start at their time step): they are drawn from time 0 on, every sample too early by the first time."
  },
  {
   "property": "C172",
   "status": "partial",
   "theorems": [
    "Verif.C172_layer_partial",
    "Verif.C172_exists",
    "Verif.C172_first_point_violated",
    "Verif.C172_mkz_line_partial",
    "Verif.C172_fkz_exact",
    "Verif.C172_fit"
   ],
   "note": "Proved on the part stated in the _partial theorem's comment. The code violates the full property: C172_first_point_violated: C172 fails at the first point of the line of the given curve (labelled \"MKZ\" for curves that are not given): it is drawn at zero stress, although the G/Gmax value there, where it is not zero, stands for another stress."
  },
  {
   "property": "C173",
   "status": "partial",
   "theorems": [
    "Verif.C173_verbose",
    "Verif.C173_when",
    "Verif.C173_digits",
    "Verif.C173_str",
    "Verif.C173_str_average",
    "Verif.C173_stored_exact",
    "Verif.C173_stored_violated",
    "Verif.C173_nan_violated",
    "Verif.C173_old_violated"
   ],
   "note": "Proved for all inputs of the model. The code violates the full property: C173_stored_violated: C173 fails for the scores kept in the object: a computed score of 0.1 is kept as another number, which `get_scores` gives and `print()` shows. C173_nan_violated: C173 fails with a NaN among the scores: the average printed by `calc_scores` is NaN, while the one of `print()` is that of the other scores. C173_old_violated: C173 fails after a call for other scores: `print()` still shows, and counts in the average, a score kept from an earlier call, whatever frequency range that call was for."
  },
  {
   "property": "C174",
   "status": "partial",
   "theorems": [
    "Verif.C174_intensity_partial",
    "Verif.C174_times_exact",
    "Verif.C174_times_violated",
    "Verif.C174_same_intensity",
    "Verif.C174_rms_partial",
    "Verif.C174_same_rms",
    "Verif.C174_cross",
    "Verif.C174_spectra_partial",
    "Verif.C174_same_spectra",
    "Verif.C174_package"
   ],
   "note": "Proved on the part stated in the _partial theorem's comment. The code violates the full property: C174_times_violated: C174 fails for records that are not sampled at the same times (other step or other start, same number of samples): in every panel the simulation is drawn at wrong times."
  },
  {
   "property": "C175",
   "status": "partial",
   "theorems": [
    "Verif.C175_surface",
    "Verif.C175_density",
    "Verif.C175_damping_partial",
    "Verif.C175_percent_violated",
    "Verif.C175_thin_surface_violated",
    "Verif.C175_water_violated",
    "Verif.C175_rejected"
   ],
   "note": "Proved on the part stated in the _partial theorem's comment. The code violates the full property: C175_percent_violated: C175 fails for damping in percent: no message is printed about it, however large the damping is (the same profile with its damping as a ratio is warned about). C175_thin_surface_violated: C175 fails for five columns: nothing is ever said about the surface layer, however thin it is: the output consists of at most the two warnings about density and damping. C175_water_violated: C175 fails for a density of exactly 1000 kg/m\u00b3 (water): it is reported as lower than 1,000 kg/m\u00b3."
  },
  {
   "property": "C176",
   "status": "partial",
   "theorems": [
    "Verif.C176_silent",
    "Verif.C176_verbose",
    "Verif.C176_linear_saved_violated",
    "Verif.C176_linear_done",
    "Verif.C176_nonlinear_done_violated",
    "Verif.C176_batch_warnings",
    "Verif.C176_batch_verbose_violated",
    "Verif.C176_batch_parallel"
   ],
   "note": "Proved for all inputs of the model. The code violates the full property: C176_linear_saved_violated: C176 fails for linear simulations: where the results are saved is never said, although the run is verbose and files are written (the equivalent-linear and nonlinear simulations do say it). C176_nonlinear_done_violated: C176 fails for nonlinear simulations: `Done.` is printed before the figures are made and the files are written, so it is printed also by runs that fail afterwards. C176_batch_verbose_violated: C176 fails for batches in several ways: a serial run pays no attention to `verbose`, and prints whatever the simulations print, with the options given to them, also with `verbose=False`."
  },
  {
   "property": "C177",
   "status": "partial",
   "theorems": [
    "Verif.C177_report",
    "Verif.C177_silent",
    "Verif.C177_converged",
    "Verif.C177_unconverged_violated",
    "Verif.C177_failed"
   ],
   "note": "Proved for all inputs of the model. The code violates the full property: C177_unconverged_violated: C177 fails for an iteration that does not converge: when all passes are used up without convergence, the output consists of the lines of the passes only, nothing tells the user that the result did not converge."
  },
  {
   "property": "C178",
   "status": "partial",
   "theorems": [
    "Verif.C178_silent",
    "Verif.C178_darendeli",
    "Verif.C178_curves",
    "Verif.C178_numbering_violated"
   ],
   "note": "Proved for all inputs of the model. The code violates the full property: C178_numbering_violated: C178 fails: the two lines of one and the same layer carry different numbers. The lines of MKZ parameters count the layers from 0, the lines of the optimisation from 1."
  },
  {
   "property": "C179",
   "status": "partial",
   "theorems": [
    "Verif.C179_extension",
    "Verif.C179_unit",
    "Verif.C179_unit_noticed",
    "Verif.C179_no_function",
    "Verif.C179_twice_violated",
    "Verif.C179_svm_range",
    "Verif.C179_svm_value_violated",
    "Verif.C179_svm_silent",
    "Verif.C179_dots",
    "Verif.C179_no_search",
    "Verif.C179_svm_pass",
    "Verif.C179_site_factors",
    "Verif.C179_transfer_same",
    "Verif.C179_transfer"
   ],
   "note": "Proved for all inputs of the model. The code violates the full property: C179_twice_violated: C179 fails for `get_GGmax`: the message is printed twice. C179_svm_value_violated: C179 fails: the warning does not tell the Vs30 it is about. It contains no number, and it is the same for all Vs30 out of range (the format `%.2f` in it is never filled in)."
  },
  {
   "property": "C180",
   "status": "partial",
   "theorems": [
    "Verif.C180_same",
    "Verif.C180_sorted",
    "Verif.C180_characters",
    "Verif.C180_names_exact",
    "Verif.C180_kept_partial",
    "Verif.C180_overwritten_violated"
   ],
   "note": "Proved on the part stated in the _partial theorem's comment. The code violates the full property: C180_overwritten_violated: C180 fails: two linear simulations that save their results within the same second use the same directory and the same names, without any warning, and the files of the first are overwritten."
  },
  {
   "property": "C181",
   "status": "partial",
   "theorems": [
    "Verif.C181_accuracy_partial",
    "Verif.C181_between_partial",
    "Verif.C181_practical",
    "Verif.C181_options",
    "Verif.C181_homogeneous_violated"
   ],
   "note": "Proved on the part stated in the _partial theorem's comment. The code violates the full property: C181_homogeneous_violated: C181, violated: VsZ of a homogeneous soil is not its velocity. 30 m of soil of 180 m/s (the boundary between the site classes D and E) have a Vs30 below 180 m/s, 30 m of soil of 360 m/s (between C and D) a Vs30 below 360 m/s."
  },
  {
   "property": "C182",
   "status": "partial",
   "theorems": [
    "Verif.C182_depth_error",
    "Verif.C182_query",
    "Verif.C182_query_partial",
    "Verif.C182_basin",
    "Verif.C182_interface_violated"
   ],
   "note": "Proved on the part stated in the _partial theorem's comment. The code violates the full property: C182_interface_violated: C182, violated: layers of 0.1 m and 0.2 m over a third one: at 0.3 m, where the third layer begins, the velocity of the second one is returned, since the sum of 0.1 and 0.2 is the double above 0.3."
  },
  {
   "property": "C183",
   "status": "partial",
   "theorems": [
    "Verif.C183_velocity",
    "Verif.C183_sign",
    "Verif.C183_negate",
    "Verif.C183_roundtrip_partial",
    "Verif.C183_absorbed_violated",
    "Verif.C183_roundtrip_violated"
   ],
   "note": "Proved on the part stated in the _partial theorem's comment. The code violates the full property: C183_absorbed_violated: C183, violated: an acceleration that follows one 2^55 times as large is lost: differentiating the velocity gives 0 instead of it. C183_roundtrip_violated: C183, violated: a constant acceleration of 1 m/s/s sampled every 0.01 s does not come back from its velocity."
  },
  {
   "property": "C184",
   "status": "partial",
   "theorems": [
    "Verif.C184_accuracy",
    "Verif.C184_below",
    "Verif.C184_refine",
    "Verif.C184_geometric",
    "Verif.C184_mkz",
    "Verif.C184_sampling_violated"
   ],
   "note": "Proved for all inputs of the model. The code violates the full property: C184_sampling_violated: The property fails in that the damping at a strain depends on the other strains asked for: for every MKZ parameter set and every strain `e`, the damping at `e` is 0 if it is asked for alone, positive if it is asked for together with `e/2`, and smaller than the hysteretic damping of the model in both cases."
  },
  {
   "property": "C185",
   "status": "partial",
   "theorems": [
    "Verif.C185_integration",
    "Verif.C185_start",
    "Verif.C185_differentiation_partial",
    "Verif.C185_first_acceleration_violated",
    "Verif.C185_arias"
   ],
   "note": "Proved on the part stated in the _partial theorem's comment. The code violates the full property: C185_first_acceleration_violated: The property fails for the first sample: whatever the velocity, the first acceleration is 0 with any time step, so that no multiple of the time step bounds the error if the derivative there is not 0."
  },
  {
   "property": "C186",
   "status": "proved",
   "theorems": [
    "Verif.C186_history",
    "Verif.C186_oscillator",
    "Verif.C186_exists",
    "Verif.C186_spectra",
    "Verif.C186_converges",
    "Verif.C186_stable",
    "Verif.C186_bound"
   ],
   "note": "Proved for all inputs of the model."
  },
  {
   "property": "C187",
   "status": "partial",
   "theorems": [
    "Verif.C187_closed",
    "Verif.C187_borehole",
    "Verif.C187_outcrop_partial",
    "Verif.C187_outcrop_found",
    "Verif.C187_outcrop_violated"
   ],
   "note": "Proved on the part stated in the _partial theorem's comment. The code violates the full property: C187_outcrop_violated: C187: `get_f0_RO` does not give the fundamental frequency of every uniform deposit. Damping makes the amplification fall, linearly in the frequency, before the resonance lets it rise: whenever `3\u03c0 \u00b7 0.05 Hz \u00b7 (1 - \u03b1\u00b2) H / Vs \u2264 \u03b1 \u03be (1 - \u03be\u00b2)` it is larger at the first tabulated frequency than at the second, and 0.05 Hz is returned, whatever `Vs / (4 H)` is."
  },
  {
   "property": "C188",
   "status": "proved",
   "theorems": [
    "Verif.C188_shift",
    "Verif.C188_harmonic",
    "Verif.C188_energy",
    "Verif.C188_site"
   ],
   "note": "Proved for all inputs of the model."
  },
  {
   "property": "C189",
   "status": "partial",
   "theorems": [
    "Verif.C189_spectrum_partial",
    "Verif.C189_scale_violated",
    "Verif.C189_transfer"
   ],
   "note": "Proved on the part stated in the _partial theorem's comment. The code violates the full property: C189_scale_violated: C189: the spectrum of one and the same motion depends on the sampling: wherever the Fourier integral over the record (of length `T`) is not zero, the amplitudes returned for finer and finer sampling exceed every bound."
  },
  {
   "property": "C190",
   "status": "proved",
   "theorems": [
    "Verif.C190_mean",
    "Verif.C190_mid_depth",
    "Verif.C190_error",
    "Verif.C190_solver"
   ],
   "note": "Proved for all inputs of the model."
  },
  {
   "property": "C191",
   "status": "partial",
   "theorems": [
    "Verif.C191_balance",
    "Verif.C191_base",
    "Verif.C191_amplification_partial",
    "Verif.C191_amplification_violated"
   ],
   "note": "Proved on the part stated in the _partial theorem's comment. The code violates the full property: C191_amplification_violated: C191 is violated, in general: for a soft layer on any damped base with impedance ratio below about twice the damping of the base (`\u03c1 Vs \u221a(1 + \u03be\u00b2) < 2 \u03be \u03c1_b V_b`) the amplification relative to rock outcrop is larger than the one relative to the motion within the ground, at the frequency of which the layer is three eighths of a wave length, whenever the layer has little enough damping."
  },
  {
   "property": "C192",
   "status": "proved",
   "theorems": [
    "Verif.C192_VsZ",
    "Verif.C192_basin_depth",
    "Verif.C192_transfer",
    "Verif.C192_table",
    "Verif.C192_every_layer"
   ],
   "note": "Proved for all inputs of the model."
  },
  {
   "property": "C193",
   "status": "partial",
   "theorems": [
    "Verif.C193_delay_peaks",
    "Verif.C193_delay_arias",
    "Verif.C193_extend_peaks",
    "Verif.C193_extend_peak_exact",
    "Verif.C193_extend_arias_partial",
    "Verif.C193_extend_violated",
    "Verif.C193_delay_spectra_partial",
    "Verif.C193_extend_spectra",
    "Verif.C193_spectra_violated"
   ],
   "note": "Proved on the part stated in the _partial theorem's comment. The code violates the full property: C193_extend_violated: C193 is violated: one sample of zero after any motion whose last sample is not zero increases its Arias intensity. C193_spectra_violated: C193 is violated: for every frequency, the response to a single sample of 1 doubles when a sample of zero is put before it (undamped oscillator, time step a quarter of its period): the oscillator starts at rest at the first sample, and the rise of the motion to that sample is missing."
  },
  {
   "property": "C194",
   "status": "proved",
   "theorems": [
    "Verif.C194_bound",
    "Verif.C194_limit",
    "Verif.C194_low"
   ],
   "note": "Proved for all inputs of the model."
  },
  {
   "property": "C195",
   "status": "proved",
   "theorems": [
    "Verif.C195_impulse",
    "Verif.C195_bounded",
    "Verif.C195_fading",
    "Verif.C195_vibration",
    "Verif.C195_filters",
    "Verif.C195_unstable"
   ],
   "note": "Proved for all inputs of the model."
  },
  {
   "property": "C196",
   "status": "partial",
   "theorems": [
    "Verif.C196_short",
    "Verif.C196_pga_partial",
    "Verif.C196_pga_violated",
    "Verif.C196_long",
    "Verif.C196_long_limit",
    "Verif.C196_long_peaks_partial",
    "Verif.C196_long_violated"
   ],
   "note": "Proved on the part stated in the _partial theorem's comment. The code violates the full property: C196_pga_violated: C196: if the first sample of a record is larger than all others, spectral acceleration does not tend to the peak ground acceleration: the oscillator is at rest at the time of the first sample, and the values between samples are not looked at. C196_long_violated: C196: for a record of constant acceleration `c`, spectral velocity does not tend to the peak velocity of the integrated record at long periods, but to a value that is smaller by `|c| dt`."
  },
  {
   "property": "C197",
   "status": "proved",
   "theorems": [
    "Verif.C197_weak",
    "Verif.C197_below",
    "Verif.C197_exact"
   ],
   "note": "Proved for all inputs of the model."
  },
  {
   "property": "C198",
   "status": "proved",
   "theorems": [
    "Verif.C198_continuous",
    "Verif.C198_thin"
   ],
   "note": "Proved for all inputs of the model."
  },
  {
   "property": "C199",
   "status": "proved",
   "theorems": [
    "Verif.C199_stiffer",
    "Verif.C199_deeper",
    "Verif.C199_bedrock"
   ],
   "note": "Proved for all inputs of the model."
  },
  {
   "property": "C200",
   "status": "proved",
   "theorems": [
    "Verif.C200_integrals",
    "Verif.C200_peaks",
    "Verif.C200_spectra",
    "Verif.C200_arias",
    "Verif.C200_arias_root"
   ],
   "note": "Proved for all inputs of the model."
  },
  {
   "property": "C201",
   "status": "proved",
   "theorems": [
    "Verif.C201_shorter",
    "Verif.C201_settled",
    "Verif.C201_limit",
    "Verif.C201_tolerance"
   ],
   "note": "Proved for all inputs of the model."
  },
  {
   "property": "C202",
   "status": "partial",
   "theorems": [
    "Verif.C202_sign_partial",
    "Verif.C202_magnitude_violated",
    "Verif.C202_exact",
    "Verif.C202_lowest"
   ],
   "note": "Proved on the part stated in the _partial theorem's comment. The code violates the full property: C202_magnitude_violated: C202 fails for all pairs of different values: the score of a simulation that is too large is larger in magnitude than the score of the exchanged pair, in which the simulation is too small by the same factor."
  },
  {
   "property": "C203",
   "status": "partial",
   "theorems": [
    "Verif.C203_firmer",
    "Verif.C203_one_curve",
    "Verif.C203_strain_partial",
    "Verif.C203_state_partial",
    "Verif.C203_strain_violated"
   ],
   "note": "Proved on the part stated in the _partial theorem's comment. The code violates the full property: C203_strain_violated: C203 fails for every soil state: from 300 times the reference strain on, damping is smaller than at 50 times the reference strain."
  },
  {
   "property": "C204",
   "status": "proved",
   "theorems": [
    "Verif.C204_pga",
    "Verif.C204_z1",
    "Verif.C204_vs30",
    "Verif.C204_ends"
   ],
   "note": "Proved for all inputs of the model."
  },
  {
   "property": "C205",
   "status": "proved",
   "theorems": [
    "Verif.C205_mkz_ref",
    "Verif.C205_mkz_stiffer",
    "Verif.C205_mkz_shape",
    "Verif.C205_fkz_stiffer",
    "Verif.C205_fkz_half",
    "Verif.C205_fkz_shape",
    "Verif.C205_transition",
    "Verif.C205_onset",
    "Verif.C205_hh_stiffer"
   ],
   "note": "Proved for all inputs of the model."
  },
  {
   "property": "C206",
   "status": "partial",
   "theorems": [
    "Verif.C206_monotone_partial",
    "Verif.C206_strength_partial",
    "Verif.C206_large",
    "Verif.C206_violated"
   ],
   "note": "Proved on the part stated in the _partial theorem's comment. The code violates the full property: C206_violated: Whatever the other parameters are, if the MKZ stress is above the strength at some strain, there are transition strains for which the HH stress is above the strength at that strain and lower at a larger one: `tau_HH` neither stays below `Tmax` nor is it a non-decreasing function of the strain."
  },
  {
   "property": "C207",
   "status": "proved",
   "theorems": [
    "Verif.C207_bounds",
    "Verif.C207_increasing",
    "Verif.C207_sharp",
    "Verif.C207_table"
   ],
   "note": "Proved for all inputs of the model."
  },
  {
   "property": "C208",
   "status": "proved",
   "theorems": [
    "Verif.C208_VsZ",
    "Verif.C208_VsZ_option2",
    "Verif.C208_basin",
    "Verif.C208_truncate",
    "Verif.C208_transfer",
    "Verif.C208_table",
    "Verif.C208_surface"
   ],
   "note": "Proved for all inputs of the model."
  },
  {
   "property": "C209",
   "status": "proved",
   "theorems": [
    "Verif.C209_peak",
    "Verif.C209_arias",
    "Verif.C209_velocity",
    "Verif.C209_end",
    "Verif.C209_spectra",
    "Verif.C209_truncate"
   ],
   "note": "Proved for all inputs of the model."
  },
  {
   "property": "C210",
   "status": "partial",
   "theorems": [
    "Verif.C210_reproducible",
    "Verif.C210_seeds_partial",
    "Verif.C210_range_violated",
    "Verif.C210_type",
    "Verif.C210_search",
    "Verif.C210_clock_seed",
    "Verif.C210_clock_violated",
    "Verif.C210_search_violated"
   ],
   "note": "Proved on the part stated in the _partial theorem's comment. The code violates the full property: C210_range_violated: C210 is violated: a seed of 2\u00b3\u00b9 or more, or of -1 or less, raises ValueError, which is not documented, although the seed is only required to be a number. C210_clock_violated: C210 is violated: without a seed, calls in the same second of any minute return the same profile, so that there are not more than 62 different ones, whatever the random number generator. C210_search_violated: C210 is violated: the search for a compliant profile without a seed makes the same attempt again and again until the second changes, and if none of the 62 profiles complies it never ends."
  },
  {
   "property": "C211",
   "status": "partial",
   "theorems": [
    "Verif.C211_d10",
    "Verif.C211_d1234_partial",
    "Verif.C211_d567_partial",
    "Verif.C211_d89_partial",
    "Verif.C211_violated",
    "Verif.C211_package",
    "Verif.C211_shapes"
   ],
   "note": "Proved on the part stated in the _partial theorem's comment. The code violates the full property: C211_violated: C211 is violated: multiplied by a small enough factor, any two motions get perfect RMS scores and any two final intensities perfect scores, because of the absolute thresholds."
  },
  {
   "property": "C212",
   "status": "partial",
   "theorems": [
    "Verif.C212_depth",
    "Verif.C212_stiffness_partial",
    "Verif.C212_jump_violated",
    "Verif.C212_profile_partial"
   ],
   "note": "Proved on the part stated in the _partial theorem's comment. The code violates the full property: C212_jump_violated: C212 is violated: where the stress is at most a quarter of the pre-consolidation stress (the upper 20 m or so), any layer stiffer than 760 m/s and up to 1000 m/s gets a smaller strength than a layer of 760 m/s."
  },
  {
   "property": "C213",
   "status": "partial",
   "theorems": [
    "Verif.C213_geometric",
    "Verif.C213_mkz_partial",
    "Verif.C213_hyperbolic",
    "Verif.C213_masing",
    "Verif.C213_reference",
    "Verif.C213_sparse_violated"
   ],
   "note": "Proved on the part stated in the _partial theorem's comment. The code violates the full property: C213_sparse_violated: C213, violated: for every MKZ soil with an exponent below 1 and every strain `e` there is a larger strain `E` such that, asked for the damping at `e/2`, `e` and `E`, `MKZ_Param` returns a smaller damping at `E` than at `e`: the long step cuts off the area under the curve."
  },
  {
   "property": "C214",
   "status": "proved",
   "theorems": [
    "Verif.C214_peak",
    "Verif.C214_linear",
    "Verif.C214_equiv"
   ],
   "note": "Proved for all inputs of the model."
  },
  {
   "property": "C215",
   "status": "proved",
   "theorems": [
    "Verif.C215_linear",
    "Verif.C215_equiv",
    "Verif.C215_surface"
   ],
   "note": "Proved for all inputs of the model."
  },
  {
   "property": "C216",
   "status": "proved",
   "theorems": [
    "Verif.C216_linear",
    "Verif.C216_equiv",
    "Verif.C216_spectra",
    "Verif.C216_arias"
   ],
   "note": "Proved for all inputs of the model."
  },
  {
   "property": "C217",
   "status": "proved",
   "theorems": [
    "Verif.C217_integration",
    "Verif.C217_spectra",
    "Verif.C217_arias",
    "Verif.C217_linear",
    "Verif.C217_equiv"
   ],
   "note": "Proved for all inputs of the model."
  },
  {
   "property": "C218",
   "status": "partial",
   "theorems": [
    "Verif.C218_filters",
    "Verif.C218_wavelet",
    "Verif.C218_fourier",
    "Verif.C218_spectrum",
    "Verif.C218_baseline_partial",
    "Verif.C218_baseline_violated"
   ],
   "note": "Proved on the part stated in the _partial theorem's comment. The code violates the full property: C218_baseline_violated: C218 is violated for the baseline correction: take any motion which is at rest for five samples or more and positive from then on. In the opposite direction it is erased (all samples of the corrected motion are zero), while the corrected motion itself is not zero: zero samples count as positive in the search for the first and the last change of sign. The design of the filter is any with a direct term in each section, as Butterworth filters have."
  },
  {
   "property": "C219",
   "status": "partial",
   "theorems": [
    "Verif.C219_package",
    "Verif.C219_d1234_violated",
    "Verif.C219_d567_violated",
    "Verif.C219_d89_violated",
    "Verif.C219_d10_violated",
    "Verif.C219_violated",
    "Verif.C219_both_partial"
   ],
   "note": "Proved on the part stated in the _partial theorem's comment. The code violates the full property: C219_d1234_violated: C219 is violated by scores 1 to 4: with either or both of the motions in the opposite direction they are the same, so a simulation of the wrong polarity is not told apart. C219_d567_violated: C219 is violated by scores 5 to 7. C219_d89_violated: C219 is violated by scores 8 and 9. C219_d10_violated: C219 is violated by score 10, the cross-correlation: it takes the absolute value of the correlation. C219_violated: C219 is violated by all scores of the package (without baseline correction): the simulation in the opposite direction gets the scores of the simulation."
  },
  {
   "property": "C220",
   "status": "proved",
   "theorems": [
    "Verif.C220_stratify",
    "Verif.C220_truncate",
    "Verif.C220_query",
    "Verif.C220_scale",
    "Verif.C220_truncate_motion"
   ],
   "note": "Proved for all inputs of the model."
  },
  {
   "property": "C221",
   "status": "proved",
   "theorems": [
    "Verif.C221_accel",
    "Verif.C221_all"
   ],
   "note": "Proved for all inputs of the model."
  },
  {
   "property": "C222",
   "status": "proved",
   "theorems": [
    "Verif.C222_amplify",
    "Verif.C222_site"
   ],
   "note": "Proved for all inputs of the model."
  },
  {
   "property": "C223",
   "status": "proved",
   "theorems": [
    "Verif.C223_accelerations",
    "Verif.C223_derivatives",
    "Verif.C223_energy"
   ],
   "note": "Proved for all inputs of the model."
  },
  {
   "property": "C224",
   "status": "proved",
   "theorems": [
    "Verif.C224_sections",
    "Verif.C224_filters",
    "Verif.C224_integration"
   ],
   "note": "Proved for all inputs of the model."
  },
  {
   "property": "C225",
   "status": "proved",
   "theorems": [
    "Verif.C225_depth",
    "Verif.C225_rows",
    "Verif.C225_growth",
    "Verif.C225_error",
    "Verif.C225_capped"
   ],
   "note": "Proved for all inputs of the model."
  },
  {
   "property": "C226",
   "status": "proved",
   "theorems": [
    "Verif.C226_masing",
    "Verif.C226_published",
    "Verif.C226_curves",
    "Verif.C226_numbers",
    "Verif.C226_mkz",
    "Verif.C226_sampled",
    "Verif.C226_grows"
   ],
   "note": "Proved for all inputs of the model."
  },
  {
   "property": "C227",
   "status": "proved",
   "theorems": [
    "Verif.C227_formula",
    "Verif.C227_velocity",
    "Verif.C227_depth",
    "Verif.C227_floor"
   ],
   "note": "Proved for all inputs of the model."
  }
 ]
}