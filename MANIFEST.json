{
 "claims": [
  {
   "property": "C01",
   "status": "proved",
   "theorems": [
    "Verif.C01_mud_reproduces_data",
    "Verif.C01_mud_reproduces_attainable",
    "Verif.C01_mud_reproduces_full_rank",
    "Verif.C01_mud_closest",
    "Verif.C01_mud_sol"
   ],
   "note": ""
  },
  {
   "property": "C02",
   "status": "proved",
   "theorems": [
    "Verif.C02_mud_minimises_distance"
   ],
   "note": ""
  },
  {
   "property": "C03",
   "status": "proved",
   "theorems": [
    "Verif.C03_mud_indep_alpha_cov",
    "Verif.C03_map_depends_on_alpha"
   ],
   "note": ""
  },
  {
   "property": "C04",
   "status": "proved",
   "theorems": [
    "Verif.C04_mud_eq_mud_alt",
    "Verif.C04_mud_sol_with_cov",
    "Verif.C04_mud_ne_mud_alt_singular"
   ],
   "note": ""
  },
  {
   "property": "C05",
   "status": "proved",
   "theorems": [
    "Verif.C05_pushforward"
   ],
   "note": ""
  },
  {
   "property": "C06",
   "status": "proved",
   "theorems": [
    "Verif.C06_updated_cov_posSemidef"
   ],
   "note": ""
  },
  {
   "property": "C07",
   "status": "proved",
   "theorems": [
    "Verif.C07_updated_cov_closed_form",
    "Verif.C07_full_rank",
    "Verif.C07_defaults",
    "Verif.C07_method_defaults"
   ],
   "note": ""
  },
  {
   "property": "C08",
   "status": "proved",
   "theorems": [
    "Verif.C08_map_minimises"
   ],
   "note": ""
  },
  {
   "property": "C09",
   "status": "proved",
   "theorems": [
    "Verif.C09_map_cov"
   ],
   "note": ""
  },
  {
   "property": "C10",
   "status": "proved",
   "theorems": [
    "Verif.C10_least_squares"
   ],
   "note": ""
  },
  {
   "property": "C11",
   "status": "proved",
   "theorems": [
    "Verif.C11_solve_keeps_problem",
    "Verif.C11_history_independent",
    "Verif.C11_all"
   ],
   "note": ""
  },
  {
   "property": "C12",
   "status": "proved",
   "theorems": [
    "Verif.C12_output_dim"
   ],
   "note": ""
  },
  {
   "property": "C13",
   "status": "proved",
   "theorems": [
    "Verif.C13_validation",
    "Verif.C13_defaults",
    "Verif.C13_one_dimensional",
    "Verif.C13_contents",
    "Verif.C13_columns"
   ],
   "note": ""
  },
  {
   "property": "C14",
   "status": "proved",
   "theorems": [
    "Verif.C14_mud_param_change",
    "Verif.C14_map_param_change",
    "Verif.C14_offset",
    "Verif.C14_mud_data_change"
   ],
   "note": ""
  },
  {
   "property": "C15",
   "status": "partial",
   "theorems": [
    "Verif.C15_terms",
    "Verif.C15_bayes_exact",
    "Verif.C15_dc_exact",
    "Verif.C15_mud_exact",
    "Verif.C15_map_exact",
    "Verif.C15_map_minimises_bayes_partial",
    "Verif.C15_mud_minimises_dc_partial",
    "Verif.C15_shape_refuted",
    "Verif.C15_offset_refuted",
    "Verif.C15_alpha_refuted",
    "Verif.C15_several_observations_refuted"
   ],
   "note": "The full statement is false of the code (offset b counted twice, mean_o.T broadcast, alpha multiplies instead of divides); refuted by witnesses. Proved: the term identities/non-negativity and minimality in the restricted cases named in the _partial theorems. For one observation the unique minimisers are characterised exactly, and the claim about MUD (MAP) holds if and only if there is no offset (the gains balance)."
  },
  {
   "property": "C16",
   "status": "proved",
   "theorems": [
    "Verif.C16_epoch",
    "Verif.C16_default_cov"
   ],
   "note": ""
  },
  {
   "property": "C17",
   "status": "proved",
   "theorems": [
    "Verif.C17_chain_of_epochs",
    "Verif.C17_length"
   ],
   "note": ""
  },
  {
   "property": "C18",
   "status": "proved",
   "theorems": [
    "Verif.C18_monotone",
    "Verif.C18_stationary"
   ],
   "note": ""
  },
  {
   "property": "C19",
   "status": "proved",
   "theorems": [
    "Verif.C19_converges"
   ],
   "note": ""
  },
  {
   "property": "C20",
   "status": "partial",
   "theorems": [
    "Verif.C20_empty_partial",
    "Verif.C20_solve_raises",
    "Verif.C20_solve_type_error",
    "Verif.C20_claim_refuted",
    "Verif.C20_iter_lin_solve_refuted",
    "Verif.C20_no_epochs"
   ],
   "note": "False of the code: unknown keyword arguments make every call with a row to visit raise TypeError (proved for all inputs). The same algorithm in funs.iterate is C16-C19."
  },
  {
   "property": "C21",
   "status": "proved",
   "theorems": [
    "Verif.C21_formula",
    "Verif.C21_default_sd",
    "Verif.C21_zero",
    "Verif.C21_affine",
    "Verif.C21_perm",
    "Verif.C21_zero_sd"
   ],
   "note": ""
  },
  {
   "property": "C22",
   "status": "partial",
   "theorems": [
    "Verif.C22_mismatch",
    "Verif.C22_one_dim",
    "Verif.C22_column_partial",
    "Verif.C22_column_refuted",
    "Verif.C22_column_raises"
   ],
   "note": "The sub-claim that (n,1) data are handled like 1-D data is false of the code (refuted); the rest is proved."
  },
  {
   "property": "C23",
   "status": "proved",
   "theorems": [
    "Verif.C23_stacked",
    "Verif.C23_scalar_std",
    "Verif.C23_repeated",
    "Verif.C23_zero"
   ],
   "note": ""
  },
  {
   "property": "C24",
   "status": "proved",
   "theorems": [
    "Verif.C24_repeated_eq_stacked"
   ],
   "note": ""
  },
  {
   "property": "C25",
   "status": "proved",
   "theorems": [
    "Verif.C25_accepts",
    "Verif.C25_errors"
   ],
   "note": ""
  },
  {
   "property": "C26",
   "status": "proved",
   "theorems": [
    "Verif.C26_mud_zeroes_misfits",
    "Verif.C26_full_rank",
    "Verif.C26_sample_mean",
    "Verif.C26_scalar_sigma"
   ],
   "note": ""
  },
  {
   "property": "C27",
   "status": "proved",
   "theorems": [
    "Verif.C27_variance"
   ],
   "note": ""
  },
  {
   "property": "C28",
   "status": "proved",
   "theorems": [
    "Verif.C28_mud_point",
    "Verif.C28_mud_point_finite",
    "Verif.C28_no_samples",
    "Verif.C28_defaults",
    "Verif.C28_is_sample",
    "Verif.C28_default_observed",
    "Verif.C28_default_initial"
   ],
   "note": ""
  },
  {
   "property": "C29",
   "status": "partial",
   "theorems": [
    "Verif.C29_exact",
    "Verif.C29_current_partial",
    "Verif.C29_after_fit_partial",
    "Verif.C29_claim_refuted"
   ],
   "note": "The full statement is false of the code: set_observed after a fit does not invalidate it (refuted by a concrete history). C29_exact gives, for every history, which settings the next estimate reflects; the _partial theorems give the histories for which they are the current ones."
  },
  {
   "property": "C30",
   "status": "proved",
   "theorems": [
    "Verif.C30_relative_weights",
    "Verif.C30_relative_weights_scipy"
   ],
   "note": "General theorem under hypothesis KdeScale on an external estimator; discharged for the modelled scipy estimator (C30_relative_weights_scipy)."
  },
  {
   "property": "C31",
   "status": "proved",
   "theorems": [
    "Verif.C31_columns",
    "Verif.C31_row_order",
    "Verif.C31_unit",
    "Verif.C31_normalize",
    "Verif.C31_values",
    "Verif.C31_rejected"
   ],
   "note": ""
  },
  {
   "property": "C32",
   "status": "proved",
   "theorems": [
    "Verif.C32_zero_weight",
    "Verif.C32_zero_weight_kde",
    "Verif.C32_needs_positive_predicted"
   ],
   "note": ""
  },
  {
   "property": "C33",
   "status": "proved",
   "theorems": [
    "Verif.C33_sample_order",
    "Verif.C33_sample_order_scipy"
   ],
   "note": ""
  },
  {
   "property": "C34",
   "status": "proved",
   "theorems": [
    "Verif.C34_weighted_mean",
    "Verif.C34_bounds"
   ],
   "note": ""
  },
  {
   "property": "C35",
   "status": "proved",
   "theorems": [
    "Verif.C35_in_domain"
   ],
   "note": ""
  },
  {
   "property": "C36",
   "status": "proved",
   "theorems": [
    "Verif.C36_float",
    "Verif.C36_int",
    "Verif.C36_errors"
   ],
   "note": ""
  },
  {
   "property": "C37",
   "status": "partial",
   "theorems": [
    "Verif.C37_exact",
    "Verif.C37_growth",
    "Verif.C37_failing_plot",
    "Verif.C37_x_range_partial",
    "Verif.C37_estimate_refuted",
    "Verif.C37_claim_refuted"
   ],
   "note": "False of the code: fit_domain pads self.domain in place at every plot without x_range. The exact effect is proved, the claim holds with x_range."
  },
  {
   "property": "C38",
   "status": "partial",
   "theorems": [
    "Verif.C38_exact",
    "Verif.C38_ignored",
    "Verif.C38_default_partial",
    "Verif.C38_claim_refuted"
   ],
   "note": "False of the code: the argument pad_domain is ignored, 0.1 is always used."
  },
  {
   "property": "C39",
   "status": "partial",
   "theorems": [
    "Verif.C39_exact",
    "Verif.C39_bayes_exact",
    "Verif.C39_single_partial",
    "Verif.C39_claim_refuted"
   ],
   "note": "False of the code: a 1-D X is one sample of n parameters."
  },
  {
   "property": "C40",
   "status": "proved",
   "theorems": [
    "Verif.C40_map_point",
    "Verif.C40_plain",
    "Verif.C40_log"
   ],
   "note": ""
  },
  {
   "property": "C41",
   "status": "partial",
   "theorems": [
    "Verif.C41_exact",
    "Verif.C41_last_partial",
    "Verif.C41_current_partial",
    "Verif.C41_claim_refuted"
   ],
   "note": "Proved for all histories in which no set_likelihood call raises; a raising set_likelihood has already switched the log flag, which refutes the claim for the remaining histories."
  },
  {
   "property": "C42",
   "status": "partial",
   "theorems": [
    "Verif.C42_exact",
    "Verif.C42_same_partial",
    "Verif.C42_claim_refuted"
   ],
   "note": "Same point whenever neither mode raises ValueError; the degenerate-posterior check differs between the modes (see C43), which refutes the rest."
  },
  {
   "property": "C43",
   "status": "partial",
   "theorems": [
    "Verif.C43_exact",
    "Verif.C43_plain_partial",
    "Verif.C43_log_exact",
    "Verif.C43_spurious_refuted",
    "Verif.C43_missed_refuted",
    "Verif.C43_claim_refuted"
   ],
   "note": "Proved in plain mode; false of the code in log mode (sum of log posteriors compared with 0)."
  },
  {
   "property": "C44",
   "status": "proved",
   "theorems": [
    "Verif.C44_formula",
    "Verif.C44_vector",
    "Verif.C44_singular"
   ],
   "note": ""
  },
  {
   "property": "C45",
   "status": "proved",
   "theorems": [
    "Verif.C45_full_functional"
   ],
   "note": ""
  },
  {
   "property": "C46",
   "status": "partial",
   "theorems": [
    "Verif.C46_always_raises",
    "Verif.C46_explicit_zero_partial",
    "Verif.C46_claim_refuted"
   ],
   "note": "False of the code: the default observed_mean=0 is an int without .T, so every call without observed_mean raises AttributeError (proved for all inputs)."
  },
  {
   "property": "C47",
   "status": "proved",
   "theorems": [
    "Verif.C47_identity",
    "Verif.C47_empty"
   ],
   "note": ""
  },
  {
   "property": "C48",
   "status": "proved",
   "theorems": [
    "Verif.C48_masks",
    "Verif.C48_bad_index",
    "Verif.C48_single_sensor"
   ],
   "note": ""
  },
  {
   "property": "C49",
   "status": "partial",
   "theorems": [
    "Verif.C49_rows_partial",
    "Verif.C49_one_coordinate",
    "Verif.C49_claim_refuted"
   ],
   "note": "False of the code for sensors with one coordinate: see C49_one_coordinate for the exact outcome; the rest is proved."
  },
  {
   "property": "C50",
   "status": "proved",
   "theorems": [
    "Verif.C50_data"
   ],
   "note": ""
  },
  {
   "property": "C51",
   "status": "partial",
   "theorems": [
    "Verif.C51_set_domain_exact",
    "Verif.C51_first_samples",
    "Verif.C51_set_lam_exact",
    "Verif.C51_compatible_partial",
    "Verif.C51_claim_refuted"
   ],
   "note": "False of the code: see C51_claim_refuted; the exact effect of each setter is proved."
  },
  {
   "property": "C52",
   "status": "proved",
   "theorems": [
    "Verif.C52_lam_ref"
   ],
   "note": ""
  },
  {
   "property": "C53",
   "status": "proved",
   "theorems": [
    "Verif.C53_measurements",
    "Verif.C53_no_samples",
    "Verif.C53_true_vals",
    "Verif.C53_true_vals_unset"
   ],
   "note": ""
  },
  {
   "property": "C54",
   "status": "partial",
   "theorems": [
    "Verif.C54_exact",
    "Verif.C54_rescaled",
    "Verif.C54_equal_counts_partial",
    "Verif.C54_claim_refuted"
   ],
   "note": "False of the code: the sum is divided by sqrt(number of samples) instead of sqrt(number of observations). The exact value is proved for all selections, and the claim when the two numbers agree."
  },
  {
   "property": "C55",
   "status": "partial",
   "theorems": [
    "Verif.C55_rejected_partial",
    "Verif.C55_exact",
    "Verif.C55_claim_refuted"
   ],
   "note": "False of the code: the ValueError is constructed but not raised; the call fails with UnboundLocalError. That no problem is ever returned is proved for all states and arguments."
  },
  {
   "property": "C56",
   "status": "partial",
   "theorems": [
    "Verif.C56_exact",
    "Verif.C56_one_observation_partial",
    "Verif.C56_wrong_length",
    "Verif.C56_raises",
    "Verif.C56_square",
    "Verif.C56_constant_partial",
    "Verif.C56_claim_refuted"
   ],
   "note": "False of the code: the weights are a column and multiply samples instead of observations, ValueError unless the two numbers agree or one is 1."
  },
  {
   "property": "C57",
   "status": "partial",
   "theorems": [
    "Verif.C57_load_partial",
    "Verif.C57_defaults",
    "Verif.C57_renamed_skipped",
    "Verif.C57_key_error",
    "Verif.C57_direct_error",
    "Verif.C57_claim_refuted"
   ],
   "note": "False of the code for renamed or directly given fields: the test looks up the field name instead of the mapped key. Proved for every mapping on which the two tests agree, in particular the defaults."
  },
  {
   "property": "C58",
   "status": "partial",
   "theorems": [
    "Verif.C58_always_raises",
    "Verif.C58_complete_partial",
    "Verif.C58_claim_refuted"
   ],
   "note": "False of the code: the default sample_dist \"uniform\" makes every call raise ValueError; what holds with the reference given and an accepted distribution is proved."
  },
  {
   "property": "C59",
   "status": "partial",
   "theorems": [
    "Verif.C59_validate_partial",
    "Verif.C59_check_true",
    "Verif.C59_claim_refuted"
   ],
   "note": "False of the code for check_true: see C59_claim_refuted."
  },
  {
   "property": "C60",
   "status": "proved",
   "theorems": [
    "Verif.C60_null_space",
    "Verif.C60_null_space_total"
   ],
   "note": "numpy.linalg.svd is external with the specification IsSvd; its existence for every matrix is proved."
  },
  {
   "property": "C61",
   "status": "partial",
   "theorems": [
    "Verif.C61_rank_decomposition_exact",
    "Verif.C61_rank_decomposition_wide",
    "Verif.C61_rank_decomposition_partial",
    "Verif.C61_claim_refuted"
   ],
   "note": "False of the code: columns of vh are used instead of rows, the first update is dropped, and wide matrices raise IndexError. The exact output is proved."
  },
  {
   "property": "C62",
   "status": "proved",
   "theorems": [
    "Verif.C62_unit_mesh",
    "Verif.C62_tables",
    "Verif.C62_normal_mesh"
   ],
   "note": ""
  },
  {
   "property": "C63",
   "status": "proved",
   "theorems": [
    "Verif.C63_mesh_grid",
    "Verif.C63_mesh_grid_errors"
   ],
   "note": ""
  },
  {
   "property": "C64",
   "status": "partial",
   "theorems": [
    "Verif.C64_plot_dist_exact",
    "Verif.C64_plot_dist_partial",
    "Verif.C64_right_iff",
    "Verif.C64_refuted_every_dim",
    "Verif.C64_claim_refuted",
    "Verif.C64_bad_source"
   ],
   "note": "False of the code: the plotted coordinate differs from the requested one; exactly when is proved for every dimension."
  },
  {
   "property": "C65",
   "status": "proved",
   "theorems": [
    "Verif.C65_std_from_equipment"
   ],
   "note": ""
  },
  {
   "property": "C66",
   "status": "partial",
   "theorems": [
    "Verif.C66_vector_partial",
    "Verif.C66_row_partial",
    "Verif.C66_table_exact",
    "Verif.C66_seeded",
    "Verif.C66_table",
    "Verif.C66_column",
    "Verif.C66_claim_refuted"
   ],
   "note": "Proved for 1-D signals and reproducibility for all; false of the code for tables (ValueError) and columns (blown up to a square)."
  },
  {
   "property": "C67",
   "status": "proved",
   "theorems": [
    "Verif.C67_mud",
    "Verif.C67_map",
    "Verif.C67_mud_rejects",
    "Verif.C67_map_rejects",
    "Verif.C67_mud_ignores_rest",
    "Verif.C67_mud_split",
    "Verif.C67_full_block",
    "Verif.C67_negative_index"
   ],
   "note": "Finding: negative split indices pass the < num_obs filter and select observations from the end (C67_negative_index)."
  },
  {
   "property": "C68",
   "status": "partial",
   "theorems": [
    "Verif.C68_contours_partial",
    "Verif.C68_claim_refuted"
   ],
   "note": "False of the code: the segment endpoints use (ref0,ref0) and (ref1,ref1); on the contour iff ref0 = ref1."
  },
  {
   "property": "C69",
   "status": "partial",
   "theorems": [
    "Verif.C69_rejects",
    "Verif.C69_exact",
    "Verif.C69_default_partial",
    "Verif.C69_claim_refuted"
   ],
   "note": "False of the code: whatever x and y are requested, columns 0 and 1 are plotted."
  },
  {
   "property": "C70",
   "status": "proved",
   "theorems": [
    "Verif.Piecewise.C70_interpolant",
    "Verif.Piecewise.C70_cover",
    "Verif.Piecewise.C70_values"
   ],
   "note": "The produced expression text is parsed by a separate tokenising specification and evaluated."
  },
  {
   "property": "C71",
   "status": "proved",
   "theorems": [
    "Verif.PrintRes.C71_rows",
    "Verif.PrintRes.C71_duplicate",
    "Verif.PrintRes.C71_key_error"
   ],
   "note": ""
  },
  {
   "property": "C72",
   "status": "partial",
   "theorems": [
    "Verif.C72_pickle_partial",
    "Verif.C72_name_error",
    "Verif.C72_claim_refuted"
   ],
   "note": "False of the code when xarray is installed: the misspelled flag xr_avial makes every path ending in nc raise NameError."
  },
  {
   "property": "C73",
   "status": "partial",
   "theorems": [
    "Verif.C73_exact",
    "Verif.C73_raises",
    "Verif.C73_one_observation_partial",
    "Verif.C73_single_partial",
    "Verif.C73_claim_refuted"
   ],
   "note": "False of the code for several observations: 1-D data are broadcast along the sample axis."
  },
  {
   "property": "C74",
   "status": "proved",
   "theorems": [
    "Verif.C74_measurements",
    "Verif.C74_stored"
   ],
   "note": ""
  },
  {
   "property": "C75",
   "status": "proved",
   "theorems": [
    "Verif.C75_load_ready",
    "Verif.C75_load_complete",
    "Verif.C75_no_layout"
   ],
   "note": ""
  },
  {
   "property": "C76",
   "status": "proved",
   "theorems": [
    "Verif.C76_svd",
    "Verif.C76_pca",
    "Verif.C76_svd_isometry"
   ],
   "note": ""
  },
  {
   "property": "C77",
   "status": "partial",
   "theorems": [
    "Verif.C77_contours_partial",
    "Verif.C77_several_observations",
    "Verif.C77_all",
    "Verif.C77_own_mesh",
    "Verif.C77_claim_refuted"
   ],
   "note": "Proved for one observation; with several observations compute_functionals raises ValueError for almost every mesh size (proved)."
  },
  {
   "property": "C78",
   "status": "proved",
   "theorems": [
    "Verif.C78_plot_sol",
    "Verif.C78_initial",
    "Verif.C78_one_parameter"
   ],
   "note": ""
  },
  {
   "property": "C79",
   "status": "proved",
   "theorems": [
    "Verif.C79_predicted_density",
    "Verif.C79_weights",
    "Verif.C79_returns_iff",
    "Verif.C79_mud_point"
   ],
   "note": "scipy gaussian_kde is modelled in Model/Kde.lean from its documented definition (exact reals); the specification IsKernelEstimate states the estimate from the outputs and the unnormalised weights."
  },
  {
   "property": "C80",
   "status": "proved",
   "theorems": [
    "Verif.C80_units"
   ],
   "note": ""
  },
  {
   "property": "C81",
   "status": "proved",
   "theorems": [
    "Verif.C81_zero_weight_left_out"
   ],
   "note": ""
  },
  {
   "property": "C82",
   "status": "proved",
   "theorems": [
    "Verif.C82_mud_more_outputs",
    "Verif.C82_ls_more_outputs"
   ],
   "note": ""
  },
  {
   "property": "C83",
   "status": "proved",
   "theorems": [
    "Verif.C83_mud_solution_set",
    "Verif.C83_ls_solution_set"
   ],
   "note": ""
  },
  {
   "property": "C84",
   "status": "proved",
   "theorems": [
    "Verif.C84_mud_fixed"
   ],
   "note": ""
  },
  {
   "property": "C85",
   "status": "proved",
   "theorems": [
    "Verif.C85_map_near_mud",
    "Verif.C85_map_tendsto_mud",
    "Verif.C85_map_near_mean"
   ],
   "note": ""
  },
  {
   "property": "C86",
   "status": "proved",
   "theorems": [
    "Verif.C86_random_problem",
    "Verif.C86_seeded"
   ],
   "note": "The generator is an arbitrary stream; uniform draws are assumed non-negative."
  },
  {
   "property": "C87",
   "status": "proved",
   "theorems": [
    "Verif.C87_noisy_data",
    "Verif.C87_rejects",
    "Verif.C87_column_std"
   ],
   "note": "Finding: deviations given as a column pass the length check but raise ValueError after the draws (C87_column_std)."
  },
  {
   "property": "C88",
   "status": "partial",
   "theorems": [
    "Verif.C88_rotation_map",
    "Verif.C88_recovers",
    "Verif.C88_small",
    "Verif.C88_ref_1d",
    "Verif.C88_seed_exact",
    "Verif.C88_seed_claim_refuted",
    "Verif.C88_trials_raise",
    "Verif.C88_trials_claim_refuted"
   ],
   "note": "False of the code: any seed seeds the generator with 24, and rotation_map_trials always raises TypeError (unknown keyword initial_mean). The rest is proved."
  },
  {
   "property": "C89",
   "status": "partial",
   "theorems": [
    "Verif.C89_exact",
    "Verif.C89_partial",
    "Verif.C89_claim_refuted"
   ],
   "note": "False of the code: the simulated noise has standard deviation sigma squared, so it is the documented one only for sigma in {0, 1}. The rest is proved."
  },
  {
   "property": "C90",
   "status": "proved",
   "theorems": [
    "Verif.C90_mud_nearest",
    "Verif.C90_default",
    "Verif.C90_kde"
   ],
   "note": ""
  },
  {
   "property": "C91",
   "status": "proved",
   "theorems": [
    "Verif.C91_map_nearest",
    "Verif.C91_given_domain",
    "Verif.C91_same_point"
   ],
   "note": ""
  },
  {
   "property": "C92",
   "status": "partial",
   "theorems": [
    "Verif.C92_exact",
    "Verif.C92_after_fit_partial",
    "Verif.C92_needs_initial",
    "Verif.C92_unfitted",
    "Verif.C92_claim_refuted",
    "Verif.C92_stale_refuted"
   ],
   "note": "False of the code: before the first fit the update is drawn unweighted, after set_observed on a fitted problem with the old ratio. Proved right after a fit, and exactly for every history."
  },
  {
   "property": "C93",
   "status": "partial",
   "theorems": [
    "Verif.C93_after_fit_partial",
    "Verif.C93_unfitted",
    "Verif.C93_reset",
    "Verif.C93_range",
    "Verif.C93_failed_observed",
    "Verif.C93_claim_refuted"
   ],
   "note": "False of the code: before the first fit the push-forward is drawn unweighted; a set_observed that raises leaves the new distribution to be drawn. Proved right after a fit."
  },
  {
   "property": "C94",
   "status": "partial",
   "theorems": [
    "Verif.C94_exact",
    "Verif.C94_plain_partial",
    "Verif.C94_log_reversed",
    "Verif.C94_log_mixed",
    "Verif.C94_needs_prior",
    "Verif.C94_returns",
    "Verif.C94_claim_refuted"
   ],
   "note": "False of the code in logarithmic mode: the log posterior is used as weights, which reverses the order or raises ValueError. Proved exactly for every history and, in plain mode, the order."
  },
  {
   "property": "C95",
   "status": "partial",
   "theorems": [
    "Verif.C95_exact",
    "Verif.C95_after_fit_partial",
    "Verif.C95_unfitted",
    "Verif.C95_needs_likelihood",
    "Verif.C95_claim_refuted"
   ],
   "note": "False of the code: not fitted since the last set_prior or set_likelihood, the data are weighted equally. Proved after a fit."
  },
  {
   "property": "C96",
   "status": "partial",
   "theorems": [
    "Verif.C96_raises",
    "Verif.C96_distances_partial",
    "Verif.C96_stale",
    "Verif.C96_stale_distances",
    "Verif.C96_one_dim",
    "Verif.C96_claim_refuted"
   ],
   "note": "False of the code: solve records no chain (C20), so get_errors raises ValueError after every history; on an object that holds chains the distances are right at the first call only (cached by length), and wrong for a 1-D reference."
  },
  {
   "property": "C97",
   "status": "partial",
   "theorems": [
    "Verif.C97_error_partial",
    "Verif.C97_plot_chain_raises",
    "Verif.C97_claim_refuted"
   ],
   "note": "False of the code: plot_chain passes keywords plot_contours does not have and always raises. plot_chain_error is proved."
  },
  {
   "property": "C98",
   "status": "partial",
   "theorems": [
    "Verif.C98_exact",
    "Verif.C98_first_partial",
    "Verif.C98_needs_measurements",
    "Verif.C98_one_coordinate",
    "Verif.C98_claim_refuted"
   ],
   "note": "False of the code: the random choice is ignored, always the first samples are drawn; with sensors of one coordinate (the default layout) it raises. The rest is proved exactly."
  },
  {
   "property": "C99",
   "status": "partial",
   "theorems": [
    "Verif.C99_scatter",
    "Verif.C99_exact",
    "Verif.C99_all_partial",
    "Verif.C99_times",
    "Verif.C99_given",
    "Verif.C99_claim_refuted"
   ],
   "note": "False of the code: the selection is not applied to the data, and data of several times raise ValueError. Proved exactly."
  },
  {
   "property": "C100",
   "status": "proved",
   "theorems": [
    "Verif.C100_pca",
    "Verif.C100_standardised"
   ],
   "note": "For every singular value decomposition the library may compute (existence proved), including the variational characterisation."
  },
  {
   "property": "C101",
   "status": "partial",
   "theorems": [
    "Verif.C101_svd_partial",
    "Verif.C101_claim_refuted"
   ],
   "note": "False of the code: the documented keyword arguments are ignored. The rest is proved."
  },
  {
   "property": "C102",
   "status": "proved",
   "theorems": [
    "Verif.C102_units"
   ],
   "note": ""
  },
  {
   "property": "C103",
   "status": "proved",
   "theorems": [
    "Verif.C103_pca_svd",
    "Verif.C103_too_many",
    "Verif.C103_svd_many"
   ],
   "note": "The routines behind PCA and np.linalg.svd may differ."
  },
  {
   "property": "C104",
   "status": "partial",
   "theorems": [
    "Verif.C104_problem_partial",
    "Verif.C104_number_raises",
    "Verif.C104_integer_raises",
    "Verif.C104_shape_raises",
    "Verif.C104_claim_refuted"
   ],
   "note": "False of the code: one number as std_dev is not spread over several quantities (AssertionError), an integer is rejected always, and without `repeated` other numbers of data than num_qoi are rejected. The rest is proved exactly."
  },
  {
   "property": "C105",
   "status": "proved",
   "theorems": [
    "Verif.C105_covariances",
    "Verif.C105_empty",
    "Verif.C105_seeded"
   ],
   "note": "The data-side covariance sigma^2/N for linearly independent operators. The plot is external."
  },
  {
   "property": "C106",
   "status": "proved",
   "theorems": [
    "Verif.C106_default_estimate"
   ],
   "note": "With the concrete kernel density estimate, no assumption on external code left beyond its formula."
  },
  {
   "property": "C107",
   "status": "partial",
   "theorems": [
    "Verif.C107_exact",
    "Verif.C107_tables",
    "Verif.C107_wide",
    "Verif.C107_tall",
    "Verif.C107_claim_refuted"
   ],
   "note": "False of the code: only square problems return, and the rank operators are not truncations (C61). Everything returned is characterised exactly."
  },
  {
   "property": "C108",
   "status": "partial",
   "theorems": [
    "Verif.C108_exact",
    "Verif.C108_pass",
    "Verif.C108_unit_partial",
    "Verif.C108_outside",
    "Verif.C108_claim_refuted",
    "Verif.normVal_eq"
   ],
   "note": "False of the code for a domain disjoint from [0, 1]: the samples are always uniform on [0, 1], so the Bayes problem has no mass and raises ValueError. For domains that meet the samples everything returned and drawn is characterised."
  },
  {
   "property": "C109",
   "status": "proved",
   "theorems": [
    "Verif.C109_value",
    "Verif.C109_minimiser",
    "Verif.C109_line"
   ],
   "note": ""
  },
  {
   "property": "C110",
   "status": "partial",
   "theorems": [
    "Verif.C110_poisson_partial",
    "Verif.C110_adcirc_partial",
    "Verif.C110_poisson_raises",
    "Verif.C110_adcirc_raises",
    "Verif.C110_claim_refuted"
   ],
   "note": "False of the code: std_dev is ignored, the deviation is always 0.05, and a data set that stores a field passed by value raises. The rest is proved."
  },
  {
   "property": "C111",
   "status": "proved",
   "theorems": [
    "Verif.C111_wme",
    "Verif.C111_reduced"
   ],
   "note": ""
  },
  {
   "property": "C112",
   "status": "proved",
   "theorems": [
    "Verif.Poisson.C112_order",
    "Verif.Poisson.C112_trials",
    "Verif.Poisson.C112_seeded",
    "Verif.Poisson.C112_trial_returns",
    "Verif.Poisson.C112_returns",
    "Verif.Poisson.C112_kde",
    "Verif.Poisson.C112_returns_scipy",
    "Verif.Poisson.C112_all_sensors"
   ],
   "note": "Drawing, scipy.optimize.minimize and the colour map of the raw solution are external. Slicing with N below 2 is not part of the claim of returning."
  },
  {
   "property": "C113",
   "status": "partial",
   "theorems": [
    "Verif.Poisson.C113_sol",
    "Verif.Poisson.C113_default_groups",
    "Verif.Poisson.C113_too_many_groups",
    "Verif.Poisson.C113_returns",
    "Verif.Poisson.C113_returns_scipy",
    "Verif.Poisson.C113_seeded_partial",
    "Verif.Poisson.C113_seeded_estimate_partial",
    "Verif.Poisson.C113_seed_claim_refuted"
   ],
   "note": "False of the code: the seed is not given to the generator that orders the sensors, so with order random the figures depend on its state. What is returned and drawn is characterised; with another order a seed fixes everything, with the random order it fixes the estimate when the two largest singular values are simple."
  },
  {
   "property": "C114",
   "status": "partial",
   "theorems": [
    "Verif.ExpDecay.C114_exact_partial",
    "Verif.ExpDecay.C114_rejects",
    "Verif.ExpDecay.C114_closest",
    "Verif.ExpDecay.C114_inverse",
    "Verif.ExpDecay.C114_claim_refuted"
   ],
   "note": "False of the code: time_range[0] is ignored, so times before it are returned when t_start is smaller. The rest is proved exactly."
  },
  {
   "property": "C115",
   "status": "partial",
   "theorems": [
    "Verif.ExpDecay.C115_decay_never",
    "Verif.ExpDecay.C115_decay_type_error",
    "Verif.ExpDecay.C115_temporal_exact",
    "Verif.ExpDecay.C115_decay_claim_refuted",
    "Verif.ExpDecay.C115_temporal_claim_refuted"
   ],
   "note": "False of the code: exp_decay_2D raises for every input (TypeError for proper ones) and identity_1D_temporal_prob raises ValueError for every input. Both are proved for all arguments."
  },
  {
   "property": "C116",
   "status": "proved",
   "theorems": [
    "Verif.Adcirc.C116_window",
    "Verif.Adcirc.C116_same_times",
    "Verif.Adcirc.C116_empty",
    "Verif.Adcirc.C116_returns",
    "Verif.Adcirc.C116_kde",
    "Verif.Adcirc.C116_returns_scipy",
    "Verif.Adcirc.C116_history"
   ],
   "note": "Drawing and the kernel density estimate are external; saving is modelled by the names of the files written."
  },
  {
   "property": "C117",
   "status": "partial",
   "theorems": [
    "Verif.Adcirc.C117_windows",
    "Verif.Adcirc.C117_returns",
    "Verif.Adcirc.C117_returns_scipy",
    "Verif.Adcirc.C117_four_windows",
    "Verif.Adcirc.C117_overwritten",
    "Verif.Adcirc.C117_files_claim_refuted",
    "Verif.Adcirc.C117_mesh_exact",
    "Verif.Adcirc.C117_mesh_partial",
    "Verif.Adcirc.C117_mesh_claim_refuted",
    "Verif.Adcirc.C117_seeded"
   ],
   "note": "False of the code: the learned quantities of all windows are saved under one literal name, so all but the last are lost; the mesh figure shows wind_speed_mult_0 whatever is requested; more than three windows raise IndexError in the time series figure; sigma is ignored (the deviation is 0.05). The windows, rows, seeds and when it returns are proved."
  },
  {
   "property": "C118",
   "status": "partial",
   "theorems": [
    "Verif.Contours.C118_figures",
    "Verif.Contours.C118_points",
    "Verif.Contours.C118_line_exact",
    "Verif.Contours.C118_documented_partial",
    "Verif.Contours.C118_claim_refuted",
    "Verif.Contours.C118_defaults",
    "Verif.Contours.C118_requested",
    "Verif.Contours.C118_default_run",
    "Verif.Contours.C118_several"
   ],
   "note": "False of the code: the solution contour is not the solution set unless the data equal the offset or the sensitivities are equal (the bug of C68); the misfit uses the offset twice (the bug of C15); several observations raise ValueError once any figure is requested. Which figures, surfaces, points, files and defaults is proved."
  },
  {
   "property": "C119",
   "status": "partial",
   "theorems": [
    "Verif.Fenics.C119_truth",
    "Verif.Fenics.C119_reads",
    "Verif.Fenics.C119_sample_exact",
    "Verif.Fenics.C119_sample_partial",
    "Verif.Fenics.C119_claim_refuted"
   ],
   "note": "False of the code on the last interval: the solver lets the boundary condition of a sample go to 1 at the end, the figures and the spline objective to 0. FEniCS itself is external."
  },
  {
   "property": "C120",
   "status": "proved",
   "theorems": [
    "Verif.Fenics.C120_generated",
    "Verif.Fenics.C120_inside",
    "Verif.Fenics.C120_returns",
    "Verif.Fenics.C120_seeded",
    "Verif.Fenics.C120_errors",
    "Verif.Fenics.C120_names"
   ],
   "note": "FEniCS is external (any map from boundary expressions to surfaces); the disk is a map from paths to contents."
  },
  {
   "property": "C121",
   "status": "proved",
   "theorems": [
    "Verif.Fenics.C121_load",
    "Verif.Fenics.C121_trials"
   ],
   "note": "The deviation of the noise is 0.05 whatever is asked for (C110)."
  },
  {
   "property": "C122",
   "status": "partial",
   "theorems": [
    "Verif.Cli.C122_solve",
    "Verif.Cli.C122_solve_returns",
    "Verif.Cli.C122_trials",
    "Verif.Cli.C122_trials_returns",
    "Verif.Cli.C122_any_order",
    "Verif.Cli.C122_seeded",
    "Verif.Cli.C122_python_partial",
    "Verif.Cli.C122_figures_claim_refuted"
   ],
   "note": "False of the code for the figures: click passes a tuple, which run_2d_poisson_sol wraps in a list, so that poisson_solve never draws anything. The rest is proved."
  },
  {
   "property": "C123",
   "status": "partial",
   "theorems": [
    "Verif.Paper.C123_returns",
    "Verif.Paper.C123_data",
    "Verif.Paper.C123_table",
    "Verif.Paper.C123_windows",
    "Verif.Paper.C123_overwritten",
    "Verif.Paper.C123_files_claim_refuted",
    "Verif.Paper.C123_scratch_exact",
    "Verif.Paper.C123_scratch_claim_refuted",
    "Verif.Paper.C123_seeded_partial",
    "Verif.Paper.C123_seed_claim_refuted",
    "Verif.Paper.C123_tides_fixed"
   ],
   "note": "False of the code: where FEniCS is installed and the data file is missing, every run fails, because the generated data are saved under another name; figure 5 overwrites the comparison of figure 3; the generator of random is not seeded for figure 7, so its groups of sensors differ between runs with the same seed. That it returns, the data, the table, the windows and the rest of the reproducibility are proved."
  },
  {
   "property": "C124",
   "status": "partial",
   "theorems": [
    "Verif.Cli.C124_comparison",
    "Verif.Cli.C124_comparison_defaults",
    "Verif.Cli.C124_comparison_estimates",
    "Verif.Cli.C124_integers",
    "Verif.Cli.C124_seed_range",
    "Verif.Cli.C124_bounds",
    "Verif.Cli.C124_negative",
    "Verif.Cli.C124_domain_claim_refuted",
    "Verif.Cli.C124_high_dim",
    "Verif.Cli.C124_high_dim_seeded",
    "Verif.Cli.C124_seed_claim_refuted",
    "Verif.Cli.C124_wme",
    "Verif.Cli.C124_wme_seeded",
    "Verif.Cli.C124_contours",
    "Verif.Cli.C124_contours_default",
    "Verif.Cli.C124_contours_rejects",
    "Verif.Cli.C124_cov_claim_refuted",
    "Verif.Cli.C124_cov_list",
    "Verif.Cli.C124_generate",
    "Verif.Cli.C124_generate_without",
    "Verif.Cli.C124_pipeline"
   ],
   "note": "False of the code: a domain of comparison with bounds that are not integers is a usage error; without --seed high_dim_linear does not use its default seed, because the seed of the group (none) replaces it; a covariance of the data given as a one-dimensional list in the JSON file, as the documentation allows for other arguments, fails. The rest is proved."
  },
  {
   "property": "C125",
   "status": "partial",
   "theorems": [
    "Verif.PlotIo.C125_restored",
    "Verif.PlotIo.C125_true",
    "Verif.PlotIo.C125_caught",
    "Verif.PlotIo.C125_works",
    "Verif.PlotIo.C125_save_fails",
    "Verif.PlotIo.C125_plot_fails",
    "Verif.PlotIo.C125_import",
    "Verif.PlotIo.C125_session_exact",
    "Verif.PlotIo.C125_figures_claim_refuted",
    "Verif.PlotIo.C125_files_claim_refuted"
   ],
   "note": "False of the code: an import closes the figures the user has open and deletes a file .test_fig.png of the user. The rest is proved for every point of failure."
  },
  {
   "property": "C126",
   "status": "partial",
   "theorems": [
    "Verif.PlotIo.C126_saves",
    "Verif.PlotIo.C126_raises",
    "Verif.PlotIo.C126_absolute",
    "Verif.PlotIo.C126_script",
    "Verif.PlotIo.C126_inside_claim_refuted",
    "Verif.PlotIo.C126_names_claim_refuted"
   ],
   "note": "False of the code: an absolute file name is written outside save_path, and names with and without the default extension are the same file. For file names with an extension and no slash everything is proved. Rendering is external."
  },
  {
   "property": "C127",
   "status": "partial",
   "theorems": [
    "Verif.PlotIo.C127_new",
    "Verif.PlotIo.C127_given",
    "Verif.PlotIo.C127_few_markers",
    "Verif.PlotIo.C127_axes_partial",
    "Verif.PlotIo.C127_axes_claim_refuted"
   ],
   "note": "False of the code: the points go to the current axes of the session, whatever ax is. The rest is proved."
  },
  {
   "property": "C128",
   "status": "proved",
   "theorems": [
    "Verif.C128_data_consistent",
    "Verif.C128_updated",
    "Verif.C128_projected"
   ],
   "note": "The distributions are those of Mathlib (multivariateGaussian)."
  },
  {
   "property": "C129",
   "status": "proved",
   "theorems": [
    "Verif.C129_mode"
   ],
   "note": ""
  },
  {
   "property": "C130",
   "status": "proved",
   "theorems": [
    "Verif.C130_posterior"
   ],
   "note": ""
  },
  {
   "property": "C131",
   "status": "proved",
   "theorems": [
    "Verif.C131_normal",
    "Verif.C131_limit"
   ],
   "note": "That the draws of the generator are independent and (standard normal) identically distributed is a hypothesis on the law of its state; a generator that meets it is constructed."
  },
  {
   "property": "C132",
   "status": "proved",
   "theorems": [
    "Verif.C132_limit",
    "Verif.C132_one_iff",
    "Verif.C132_linear",
    "Verif.C132_importance"
   ],
   "note": "Samples and weights are modelled as values of random variables; the distribution objects evaluate the given densities."
  },
  {
   "property": "C133",
   "status": "proved",
   "theorems": [
    "Verif.C133_law",
    "Verif.C133_identified",
    "Verif.C133_consistent"
   ],
   "note": "Exact arithmetic; the noise is a family of random variables."
  },
  {
   "property": "C134",
   "status": "proved",
   "theorems": [
    "Verif.C134_converges",
    "Verif.C134_rate"
   ],
   "note": "Predicted densities are those of the distribution passed to set_predicted, not the kernel density estimate."
  },
  {
   "property": "C135",
   "status": "proved",
   "theorems": [
    "Verif.C135_mud",
    "Verif.C135_rate"
   ],
   "note": "Initial and observed distributions have independent entries, since the code takes the product of the columns of pdf."
  },
  {
   "property": "C136",
   "status": "proved",
   "theorems": [
    "Verif.C136_converges",
    "Verif.C136_map"
   ],
   "note": "set_likelihood with log=False."
  },
  {
   "property": "C137",
   "status": "proved",
   "theorems": [
    "Verif.C137_wme",
    "Verif.C137_sharp",
    "Verif.C137_zero",
    "Verif.binary_standard",
    "Verif.rounded_exact"
   ],
   "note": "Standard model of rounding (any relative error u < 1 per operation, any order of summation); exponent range unbounded. binary_standard shows that rounding to p binary digits with pairwise summation meets it; rounded_exact that without rounding the functions are those of the exact model."
  },
  {
   "property": "C138",
   "status": "proved",
   "theorems": [
    "Verif.C138_near",
    "Verif.C138_same"
   ],
   "note": "Rounding model of C137; the densities are the values the pdf objects return."
  },
  {
   "property": "C139",
   "status": "proved",
   "theorems": [
    "Verif.C139_ratio",
    "Verif.C139_sharp"
   ],
   "note": "Rounding model of C137."
  },
  {
   "property": "C140",
   "status": "proved",
   "theorems": [
    "Verif.C140_plain",
    "Verif.C140_log"
   ],
   "note": "Rounding model of C137."
  },
  {
   "property": "C141",
   "status": "proved",
   "theorems": [
    "Verif.C141_linear",
    "Verif.C141_bounded",
    "Verif.C141_drift"
   ],
   "note": "The error of one mud_sol update is a hypothesis; its size for LAPACK is not derived."
  },
  {
   "property": "C142",
   "status": "proved",
   "theorems": [
    "Verif.C142_mud",
    "Verif.C142_map",
    "Verif.C142_ls",
    "Verif.C142_lipschitz",
    "Verif.C142_jump"
   ],
   "note": "Exact arithmetic."
  },
  {
   "property": "C143",
   "status": "proved",
   "theorems": [
    "Verif.C143_consistent",
    "Verif.C143_confined",
    "Verif.C143_linear"
   ],
   "note": "scipy.stats.gaussian_kde by its model scipyEnv (C79); convergence is weak convergence, tested on all bounded continuous functions; for uniform convergence of the density see C144."
  },
  {
   "property": "C144",
   "status": "proved",
   "theorems": [
    "Verif.C144_uniform",
    "Verif.C144_linear"
   ],
   "note": "scipy.stats.gaussian_kde by its model scipyEnv (C79). Any number of outputs: Bernstein inequality on a grid, kernels of fixed shape below and above the data-dependent one."
  },
  {
   "property": "C145",
   "status": "partial",
   "theorems": [
    "Verif.C145_interior_partial",
    "Verif.C145_unit",
    "Verif.C145_boundary",
    "Verif.C145_claim_refuted"
   ],
   "note": "False in general: the kernel estimate halves the density of the outputs at the end of an interval, so uniform samples on [0, 1] with the observed density norm(0.75, 0.3) yield estimates that converge to 1, not 0.75 (C145_claim_refuted, C145_boundary). Proved when the observed density vanishes outside a compact set where the density of the outputs is continuous and positive (C145_interior_partial, with weights), and for uniform samples on the unit interval when the peak of the observed density is more than twice its values at both ends (C145_unit)."
  },
  {
   "property": "C146",
   "status": "proved",
   "theorems": [
    "Verif.C146_expected_ratio",
    "Verif.C146_unit"
   ],
   "note": "Scott bandwidth, exact reals."
  },
  {
   "property": "C147",
   "status": "proved",
   "theorems": [
    "Verif.C147_update",
    "Verif.C147_given",
    "Verif.C147_outputs"
   ],
   "note": "C147_outputs: without predictability the outputs of the updated distribution are the observed distribution restricted to the set where the density of the outputs is positive."
  },
  {
   "property": "C148",
   "status": "proved",
   "theorems": [
    "Verif.C148_nearest",
    "Verif.C148_almost_surely",
    "Verif.C148_unique"
   ],
   "note": "Scott bandwidth, exact reals."
  },
  {
   "property": "C149",
   "status": "proved",
   "theorems": [
    "Verif.C149_expected_ratio",
    "Verif.C149_almost_surely",
    "Verif.C149_exact_sample"
   ],
   "note": "Scott bandwidth, exact reals."
  },
  {
   "property": "C150",
   "status": "proved",
   "theorems": [
    "Verif.C150_least_squares",
    "Verif.C150_log",
    "Verif.C150_outside"
   ],
   "note": ""
  },
  {
   "property": "C151",
   "status": "partial",
   "theorems": [
    "Verif.C151_partial",
    "Verif.C151_claim_refuted",
    "Verif.C151_mud",
    "Verif.C151_map"
   ],
   "note": "False in general: the weighted mean error only sees the mean of the differences, so mud_problem prefers a sample predicting 1, -1, 1, ... to one that is always off by 1/10; true when every sample predicts one value for all measurements."
  },
  {
   "property": "C152",
   "status": "partial",
   "theorems": [
    "Verif.C152_param",
    "Verif.C152_obs",
    "Verif.C152_bayes_param",
    "Verif.C152_bayes_obs",
    "Verif.C152_nonempty_partial",
    "Verif.C152_claim_refuted",
    "Verif.C152_reserved",
    "Verif.C152_defaults",
    "Verif.C152_obs_defaults",
    "Verif.C152_bayes_defaults",
    "Verif.C152_bayes_obs_defaults"
   ],
   "note": "False in part: DensityProblem.plot_obs_space tests \"if ob_opts:\", so an empty dictionary also suppresses the curve (likewise true_opts of both plot_param_space); the documented defaults (dashed, width 4, \"Initial\") are not those used; BayesProblem swallows an option ylim. Everything else is proved."
  },
  {
   "property": "C153",
   "status": "partial",
   "theorems": [
    "Verif.C153_exact",
    "Verif.C153_claim_refuted",
    "Verif.C153_error"
   ],
   "note": "False of the last series, which is always drawn \"r-\" with alpha and the sensor label; exact for the others. Matplotlib is assumed to accept the keywords."
  },
  {
   "property": "C154",
   "status": "partial",
   "theorems": [
    "Verif.C154_exact",
    "Verif.C154_calls",
    "Verif.C154_refuted",
    "Verif.C154_claim_refuted"
   ],
   "note": "False: the label of the marker is always the name of the point and is written into the dictionary of the caller; nothing else is changed. Matplotlib is assumed to accept the keywords."
  },
  {
   "property": "C155",
   "status": "partial",
   "theorems": [
    "Verif.C155_exact",
    "Verif.C155_default_raises",
    "Verif.C155_claim_refuted"
   ],
   "note": "True for options that matplotlib accepts; the default plot_opts contain fs, which is not a property of a line, so the default call raises AttributeError (that matplotlib rejects fs is a hypothesis on external code)."
  },
  {
   "property": "C156",
   "status": "partial",
   "theorems": [
    "Verif.C156_setters_partial",
    "Verif.C156_set_weights",
    "Verif.C156_set_initial",
    "Verif.C156_set_observed",
    "Verif.C156_set_predicted",
    "Verif.C156_set_predicted_weights",
    "Verif.C156_fit_keeps",
    "Verif.C156_retry",
    "Verif.C156_claim_refuted"
   ],
   "note": "False in part: a failed estimate() has set the default initial distribution, so that a predicted distribution set later is kept instead of discarded; a failed set_predicted(weights=...) has set the weights; a failed set_observed leaves its distribution for plot_obs_space. Proved for the other setters, and that every failure is repeatable."
  },
  {
   "property": "C157",
   "status": "partial",
   "theorems": [
    "Verif.C157_later_partial",
    "Verif.C157_set_prior",
    "Verif.C157_set_likelihood",
    "Verif.C157_retry",
    "Verif.C157_claim_refuted"
   ],
   "note": "False only of set_likelihood with the other value of log: the log flag is switched before the density is evaluated. Proved for every other call at any point of any history."
  },
  {
   "property": "C158",
   "status": "partial",
   "theorems": [
    "Verif.C158_assign_partial",
    "Verif.C158_data_exact",
    "Verif.C158_measurements",
    "Verif.C158_claim_refuted"
   ],
   "note": "True with one exception: assigning an array without dimensions to data sets sensors to [0]. measurements_from_reference that raises has stored its arguments."
  },
  {
   "property": "C159",
   "status": "partial",
   "theorems": [
    "Verif.C159_failed_load",
    "Verif.C159_claim_refuted"
   ],
   "note": "False: load assigns one attribute after the other. Proved: the object is the one after the attributes before the defective one."
  },
  {
   "property": "C160",
   "status": "partial",
   "theorems": [
    "Verif.C160_load_exact",
    "Verif.C160_reload_exact",
    "Verif.C160_claim_refuted"
   ],
   "note": "False: the new domain is checked against the old samples, so a second data set - or the same one, if it has a sample outside its domain - is refused. Exact otherwise, for data sets with the entries of C75."
  },
  {
   "property": "C161",
   "status": "partial",
   "theorems": [
    "Verif.C161_map_batches",
    "Verif.C161_map_order",
    "Verif.C161_map_joint",
    "Verif.C161_mud_uncorrelated_partial",
    "Verif.C161_mud_exact",
    "Verif.C161_claim_refuted"
   ],
   "note": "True for MAP, any number of batches in any order. False for MUD: a later batch undoes the fit to an earlier one unless the predictions of the two are uncorrelated under the initial covariance; exactly then it holds whatever the data."
  },
  {
   "property": "C162",
   "status": "proved",
   "theorems": [
    "Verif.C162_solve_order",
    "Verif.C162_observations",
    "Verif.C162_quantities",
    "Verif.C162_stacked",
    "Verif.C162_repeated",
    "Verif.C162_same_std",
    "Verif.C162_wme"
   ],
   "note": "In exact arithmetic; with exceptions (singular covariances, invalid deviations) the same exception."
  },
  {
   "property": "C163",
   "status": "proved",
   "theorems": [
    "Verif.C163_uncorrelated",
    "Verif.C163_mud",
    "Verif.C163_mud_alt",
    "Verif.C163_map",
    "Verif.C163_map_only",
    "Verif.C163_iterate",
    "Verif.C163_mud_batches",
    "Verif.C163_map_batches",
    "Verif.C163_unused_parameter"
   ],
   "note": "In exact arithmetic. Least squares is not included: it does not use the initial distribution."
  },
  {
   "property": "C164",
   "status": "proved",
   "theorems": [
    "Verif.C164_mud",
    "Verif.C164_mud_quantity",
    "Verif.C164_map_below_mud",
    "Verif.C164_map_predictions"
   ],
   "note": "In exact arithmetic. Variances are those of the Gaussian measures of Mathlib."
  },
  {
   "property": "C165",
   "status": "proved",
   "theorems": [
    "Verif.C165_wme_average",
    "Verif.C165_wme_pooled",
    "Verif.C165_average",
    "Verif.C165_pooled",
    "Verif.C165_two"
   ],
   "note": "In exact arithmetic, with pinv the Moore-Penrose inverse."
  },
  {
   "property": "C166",
   "status": "proved",
   "theorems": [
    "Verif.C166_stored",
    "Verif.C166_returned",
    "Verif.C166_fresh",
    "Verif.C166_covariances"
   ],
   "note": "Calls computes is spelled out in the definition ComputesSolution: the method was asked for and its solve on the fresh object returns, or all were asked for and all up to it return."
  },
  {
   "property": "C167",
   "status": "proved",
   "theorems": [
    "Verif.C167_map",
    "Verif.C167_mud",
    "Verif.C167_map_mud"
   ],
   "note": "The laws of the parameters and of the noise are Mathlib normal distributions; exact arithmetic. C167_map needs positive definite covariances (otherwise solve raises), C167_mud positive semidefinite ones only."
  },
  {
   "property": "C168",
   "status": "partial",
   "theorems": [
    "Verif.C168_map",
    "Verif.C168_mud_claim_refuted",
    "Verif.C168_mud_partial"
   ],
   "note": "(a) holds (C168_map). (b) does not: MUD follows the data whatever their quality, so with two observations with correlated errors, both more precise than the predictions, leaving one out can give a smaller variance (C168_mud_claim_refuted). What holds: for the same observations less noise gives smaller updated covariances (C168_mud_partial)."
  },
  {
   "property": "C169",
   "status": "proved",
   "theorems": [
    "Verif.C169_map",
    "Verif.C169_mud",
    "Verif.C169_intervals",
    "Verif.C169_mud_intervals"
   ],
   "note": "Mathlib normal distributions; exact arithmetic. MAP needs positive definite covariances (otherwise solve raises), MUD positive semidefinite ones only."
  },
  {
   "property": "C170",
   "status": "partial",
   "theorems": [
    "Verif.C170_settles",
    "Verif.C170_converges",
    "Verif.C170_any_start",
    "Verif.C170_visited_rows",
    "Verif.C170_mud_claim_refuted",
    "Verif.C170_order_claim_refuted"
   ],
   "note": "(a) holds. (b) and (c) do not: with two measurements of one parameter that disagree, every epoch ends at the one visited last (C170_mud_claim_refuted, C170_order_claim_refuted). For consistent systems (b) is C19."
  },
  {
   "property": "C171",
   "status": "proved",
   "theorems": [
    "Verif.C171_rows",
    "Verif.C171_covariance",
    "Verif.C171_parameters",
    "Verif.C171_offset",
    "Verif.C171_numbering"
   ],
   "note": "Exact arithmetic. T need not be invertible or square."
  },
  {
   "property": "C172",
   "status": "proved",
   "theorems": [
    "Verif.C172_map_region",
    "Verif.C172_mud_region",
    "Verif.C172_misfit"
   ],
   "note": "Mathlib normal distributions; chiSq n is the law of the sum of squares of n independent standard normal variables; exact arithmetic."
  },
  {
   "property": "C173",
   "status": "partial",
   "theorems": [
    "Verif.C173_map",
    "Verif.C173_map_tendsto",
    "Verif.C173_mud_claim_refuted"
   ],
   "note": "(a) holds. (b) holds for attainable data (C85) but not in general: MUD does not know the noise covariance; two measurements of one parameter with different precisions refute it (C173_mud_claim_refuted)."
  },
  {
   "property": "C174",
   "status": "proved",
   "theorems": [
    "Verif.C174_selection",
    "Verif.C174_estimates"
   ],
   "note": "For runs without data_weights (with them the call fails or weighs samples, C56), a non-zero std_dev, and masks that select at least one time and one sensor."
  },
  {
   "property": "C175",
   "status": "proved",
   "theorems": [
    "Verif.C175_mud_map",
    "Verif.C175_mud_ls",
    "Verif.C175_isotropic",
    "Verif.C175_determined"
   ],
   "note": "In exact arithmetic."
  },
  {
   "property": "C176",
   "status": "proved",
   "theorems": [
    "Verif.C176_mud_problem",
    "Verif.C176_closest"
   ],
   "note": "For a non-zero std_dev and masks that select at least one time and one sensor (for the closest sample also one sample). In exact arithmetic."
  },
  {
   "property": "C177",
   "status": "partial",
   "theorems": [
    "Verif.C177_wme",
    "Verif.C177_wme_default",
    "Verif.C177_partial",
    "Verif.C177_claim_refuted"
   ],
   "note": "(a) holds (for (a) without a standard deviation the data are not all equal). (b) holds while all standard deviations are above the absolute bound 1e-14 of transform_linear_map (C177_partial); it is false in general, since a larger unit of length makes a valid problem raise AssertionError (C177_claim_refuted)."
  },
  {
   "property": "C178",
   "status": "partial",
   "theorems": [
    "Verif.C178_expected_ratio",
    "Verif.C178_mud_partial",
    "Verif.C178_mud_claim_refuted"
   ],
   "note": "The expected ratios are the same. The MUD points are the same if merging multiplies all weights by one number and one sample alone has the largest value (C178_mud_partial), but not in general: the weight is a factor of the value that is maximised, so samples 0, 0, 1 of weight 1 with ratios 2, 2, 3 give 1, and the samples 0, 1 with weights 2, 1 give 0 (C178_mud_claim_refuted). The predicted density is given explicitly: the default kernel density estimate is an external parameter of the model."
  }
 ]
}