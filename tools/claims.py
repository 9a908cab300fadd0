T['C01']=('proved',['C01_mud_reproduces_data','C01_mud_reproduces_attainable','C01_mud_reproduces_full_rank','C01_mud_closest','C01_mud_sol'],'')
T['C02']=('proved',['C02_mud_minimises_distance'],'')
T['C03']=('proved',['C03_mud_indep_alpha_cov','C03_map_depends_on_alpha'],'')
T['C04']=('proved',['C04_mud_eq_mud_alt','C04_mud_sol_with_cov','C04_mud_ne_mud_alt_singular'],'')
T['C05']=('proved',['C05_pushforward'],'')
T['C06']=('proved',['C06_updated_cov_posSemidef'],'')
T['C07']=('proved',['C07_updated_cov_closed_form','C07_full_rank','C07_defaults','C07_method_defaults'],'')
T['C08']=('proved',['C08_map_minimises'],'')
T['C09']=('proved',['C09_map_cov'],'')
T['C10']=('proved',['C10_least_squares'],'')
T['C11']=('proved',['C11_solve_keeps_problem','C11_history_independent','C11_all'],'')
T['C12']=('proved',['C12_output_dim'],'')
T['C13']=('proved',['C13_validation','C13_defaults','C13_one_dimensional','C13_contents','C13_columns'],'')
T['C14']=('proved',['C14_mud_param_change','C14_map_param_change','C14_offset','C14_mud_data_change'],'')

T['C15']=('partial',['C15_terms','C15_bayes_exact','C15_dc_exact','C15_mud_exact','C15_map_exact','C15_map_minimises_bayes_partial','C15_mud_minimises_dc_partial','C15_shape_refuted','C15_offset_refuted','C15_alpha_refuted','C15_several_observations_refuted'],'The full statement is false of the code (offset b counted twice, mean_o.T broadcast, alpha multiplies instead of divides); refuted by witnesses. Proved: the term identities/non-negativity and minimality in the restricted cases named in the _partial theorems. For one observation the unique minimisers are characterised exactly, and the claim about MUD (MAP) holds if and only if there is no offset (the gains balance).')
T['C16']=('proved',['C16_epoch','C16_default_cov'],'')
T['C17']=('proved',['C17_chain_of_epochs','C17_length'],'')
T['C18']=('proved',['C18_monotone','C18_stationary'],'')
T['C19']=('proved',['C19_converges'],'')
T['C20']=('partial',['C20_empty_partial','C20_solve_raises','C20_solve_type_error','C20_claim_refuted','C20_iter_lin_solve_refuted','C20_no_epochs'],'False of the code: unknown keyword arguments make every call with a row to visit raise TypeError (proved for all inputs). The same algorithm in funs.iterate is C16-C19.')
T['C21']=('proved',['C21_formula','C21_default_sd','C21_zero','C21_affine','C21_perm','C21_zero_sd'],'')
T['C22']=('partial',['C22_mismatch','C22_one_dim','C22_column_partial','C22_column_refuted','C22_column_raises'],'The sub-claim that (n,1) data are handled like 1-D data is false of the code (refuted); the rest is proved.')
T['C23']=('proved',['C23_stacked','C23_scalar_std','C23_repeated','C23_zero'],'')
T['C24']=('proved',['C24_repeated_eq_stacked'],'')
T['C25']=('proved',['C25_accepts','C25_errors'],'')
T['C26']=('proved',['C26_mud_zeroes_misfits','C26_full_rank','C26_sample_mean','C26_scalar_sigma'],'')
T['C27']=('proved',['C27_variance'],'')
T['C28']=('proved',['C28_mud_point','C28_mud_point_finite','C28_no_samples','C28_defaults','C28_is_sample','C28_default_observed','C28_default_initial'],'')
T['C29']=('partial',['C29_exact','C29_current_partial','C29_after_fit_partial','C29_claim_refuted'],'The full statement is false of the code: set_observed after a fit does not invalidate it (refuted by a concrete history). C29_exact gives, for every history, which settings the next estimate reflects; the _partial theorems give the histories for which they are the current ones.')
T['C30']=('proved',['C30_relative_weights','C30_relative_weights_scipy'],'General theorem under hypothesis KdeScale on an external estimator; discharged for the modelled scipy estimator (C30_relative_weights_scipy).')
T['C31']=('proved',['C31_columns','C31_row_order','C31_unit','C31_normalize','C31_values','C31_rejected'],'')
T['C32']=('proved',['C32_zero_weight','C32_zero_weight_kde','C32_needs_positive_predicted'],'')
T['C33']=('proved',['C33_sample_order','C33_sample_order_scipy'],'')
T['C34']=('proved',['C34_weighted_mean','C34_bounds'],'')
T['C35']=('proved',['C35_in_domain'],'')
T['C36']=('proved',['C36_float','C36_int','C36_errors'],'')
T['C37']=('partial',['C37_exact','C37_growth','C37_failing_plot','C37_x_range_partial','C37_estimate_refuted','C37_claim_refuted'],'False of the code: fit_domain pads self.domain in place at every plot without x_range. The exact effect is proved, the claim holds with x_range.')
T['C38']=('partial',['C38_exact','C38_ignored','C38_default_partial','C38_claim_refuted'],'False of the code: the argument pad_domain is ignored, 0.1 is always used.')
T['C39']=('partial',['C39_exact','C39_bayes_exact','C39_single_partial','C39_claim_refuted'],'False of the code: a 1-D X is one sample of n parameters.')
T['C40']=('proved',['C40_map_point','C40_plain','C40_log'],'')
T['C41']=('partial',['C41_exact','C41_last_partial','C41_current_partial','C41_claim_refuted'],'Proved for all histories in which no set_likelihood call raises; a raising set_likelihood has already switched the log flag, which refutes the claim for the remaining histories.')
T['C42']=('partial',['C42_exact','C42_same_partial','C42_claim_refuted'],'Same point whenever neither mode raises ValueError; the degenerate-posterior check differs between the modes (see C43), which refutes the rest.')
T['C43']=('partial',['C43_exact','C43_plain_partial','C43_log_exact','C43_spurious_refuted','C43_missed_refuted','C43_claim_refuted'],'Proved in plain mode; false of the code in log mode (sum of log posteriors compared with 0).')
T['C44']=('proved',['C44_formula','C44_vector','C44_singular'],'')
T['C45']=('proved',['C45_full_functional'],'')
T['C46']=('partial',['C46_always_raises','C46_explicit_zero_partial','C46_claim_refuted'],'False of the code: the default observed_mean=0 is an int without .T, so every call without observed_mean raises AttributeError (proved for all inputs).')
T['C47']=('proved',['C47_identity','C47_empty'],'')
T['C48']=('proved',['C48_masks','C48_bad_index','C48_single_sensor'],'')
T['C49']=('partial',['C49_rows_partial','C49_one_coordinate','C49_claim_refuted'],'False of the code for sensors with one coordinate: see C49_one_coordinate for the exact outcome; the rest is proved.')
T['C50']=('proved',['C50_data'],'')
T['C51']=('partial',['C51_set_domain_exact','C51_first_samples','C51_set_lam_exact','C51_compatible_partial','C51_claim_refuted'],'False of the code: see C51_claim_refuted; the exact effect of each setter is proved.')
T['C52']=('proved',['C52_lam_ref'],'')
T['C53']=('proved',['C53_measurements','C53_no_samples','C53_true_vals','C53_true_vals_unset'],'')
T['C59']=('partial',['C59_validate_partial','C59_check_true','C59_claim_refuted'],'False of the code for check_true: see C59_claim_refuted.')
T['C73']=('partial',['C73_exact','C73_raises','C73_one_observation_partial','C73_single_partial','C73_claim_refuted'],'False of the code for several observations: 1-D data are broadcast along the sample axis.')
T['C54']=('partial',['C54_exact','C54_rescaled','C54_equal_counts_partial','C54_claim_refuted'],'False of the code: the sum is divided by sqrt(number of samples) instead of sqrt(number of observations). The exact value is proved for all selections, and the claim when the two numbers agree.')
T['C55']=('partial',['C55_rejected_partial','C55_exact','C55_claim_refuted'],'False of the code: the ValueError is constructed but not raised; the call fails with UnboundLocalError. That no problem is ever returned is proved for all states and arguments.')
T['C56']=('partial',['C56_exact','C56_one_observation_partial','C56_wrong_length','C56_raises','C56_square','C56_constant_partial','C56_claim_refuted'],'False of the code: the weights are a column and multiply samples instead of observations, ValueError unless the two numbers agree or one is 1.')
T['C57']=('partial',['C57_load_partial','C57_defaults','C57_renamed_skipped','C57_key_error','C57_direct_error','C57_claim_refuted'],'False of the code for renamed or directly given fields: the test looks up the field name instead of the mapped key. Proved for every mapping on which the two tests agree, in particular the defaults.')
T['C62']=('proved',['C62_unit_mesh','C62_tables','C62_normal_mesh'],'')
T['C66']=('partial',['C66_vector_partial','C66_row_partial','C66_table_exact','C66_seeded','C66_table','C66_column','C66_claim_refuted'],'Proved for 1-D signals and reproducibility for all; false of the code for tables (ValueError) and columns (blown up to a square).')
T['C72']=('partial',['C72_pickle_partial','C72_name_error','C72_claim_refuted'],'False of the code when xarray is installed: the misspelled flag xr_avial makes every path ending in nc raise NameError.')
T['C74']=('proved',['C74_measurements','C74_stored'],'')
T['C75']=('proved',['C75_load_ready','C75_load_complete','C75_no_layout'],'')
T['C76']=('proved',['C76_svd','C76_pca','C76_svd_isometry'],'')
T['C60']=('proved',['C60_null_space','C60_null_space_total'],'numpy.linalg.svd is external with the specification IsSvd; its existence for every matrix is proved.')
T['C61']=('partial',['C61_rank_decomposition_exact','C61_rank_decomposition_wide','C61_rank_decomposition_partial','C61_claim_refuted'],'False of the code: columns of vh are used instead of rows, the first update is dropped, and wide matrices raise IndexError. The exact output is proved.')
T['C63']=('proved',['C63_mesh_grid','C63_mesh_grid_errors'],'')
T['C64']=('partial',['C64_plot_dist_exact','C64_plot_dist_partial','C64_right_iff','C64_refuted_every_dim','C64_claim_refuted','C64_bad_source'],'False of the code: the plotted coordinate differs from the requested one; exactly when is proved for every dimension.')
T['C65']=('proved',['C65_std_from_equipment'],'')
T['C68']=('partial',['C68_contours_partial','C68_claim_refuted'],'False of the code: the segment endpoints use (ref0,ref0) and (ref1,ref1); on the contour iff ref0 = ref1.')
T['C58']=('partial',['C58_always_raises','C58_complete_partial','C58_claim_refuted'],'False of the code: the default sample_dist "uniform" makes every call raise ValueError; what holds with the reference given and an accepted distribution is proved.')
T['C67']=('proved',['C67_mud','C67_map','C67_mud_rejects','C67_map_rejects','C67_mud_ignores_rest','C67_mud_split','C67_full_block','C67_negative_index'],'Finding: negative split indices pass the < num_obs filter and select observations from the end (C67_negative_index).')
T['C69']=('partial',['C69_rejects','C69_exact','C69_default_partial','C69_claim_refuted'],'False of the code: whatever x and y are requested, columns 0 and 1 are plotted.')
T['C70']=('proved',['Piecewise.C70_interpolant','Piecewise.C70_cover','Piecewise.C70_values'],'The produced expression text is parsed by a separate tokenising specification and evaluated.')
T['C71']=('proved',['PrintRes.C71_rows','PrintRes.C71_duplicate','PrintRes.C71_key_error'],'')
T['C77']=('partial',['C77_contours_partial','C77_several_observations','C77_all','C77_own_mesh','C77_claim_refuted'],'Proved for one observation; with several observations compute_functionals raises ValueError for almost every mesh size (proved).')
T['C78']=('proved',['C78_plot_sol','C78_initial','C78_one_parameter'],'')
T['C79']=('proved',['C79_predicted_density','C79_weights','C79_returns_iff','C79_mud_point'],'scipy gaussian_kde is modelled in Model/Kde.lean from its documented definition (exact reals); the specification IsKernelEstimate states the estimate from the outputs and the unnormalised weights.')
T['C80']=('proved',['C80_units'],'')
T['C81']=('proved',['C81_zero_weight_left_out'],'')
T['C82']=('proved',['C82_mud_more_outputs','C82_ls_more_outputs'],'')
T['C83']=('proved',['C83_mud_solution_set','C83_ls_solution_set'],'')
T['C84']=('proved',['C84_mud_fixed'],'')
T['C85']=('proved',['C85_map_near_mud','C85_map_tendsto_mud','C85_map_near_mean'],'')
T['C86']=('proved',['C86_random_problem','C86_seeded'],'The generator is an arbitrary stream; uniform draws are assumed non-negative.')
T['C87']=('proved',['C87_noisy_data','C87_rejects','C87_column_std'],'Finding: deviations given as a column pass the length check but raise ValueError after the draws (C87_column_std).')
T['C88']=('partial',['C88_rotation_map','C88_recovers','C88_small','C88_ref_1d','C88_seed_exact','C88_seed_claim_refuted','C88_trials_raise','C88_trials_claim_refuted'],'False of the code: any seed seeds the generator with 24, and rotation_map_trials always raises TypeError (unknown keyword initial_mean). The rest is proved.')
T['C89']=('partial',['C89_exact','C89_partial','C89_claim_refuted'],'False of the code: the simulated noise has standard deviation sigma squared, so it is the documented one only for sigma in {0, 1}. The rest is proved.')
T['C90']=('proved',['C90_mud_nearest','C90_default','C90_kde'],'')
T['C91']=('proved',['C91_map_nearest','C91_given_domain','C91_same_point'],'')
T['C92']=('partial',['C92_exact','C92_after_fit_partial','C92_needs_initial','C92_unfitted','C92_claim_refuted','C92_stale_refuted'],'False of the code: before the first fit the update is drawn unweighted, after set_observed on a fitted problem with the old ratio. Proved right after a fit, and exactly for every history.')
T['C93']=('partial',['C93_after_fit_partial','C93_unfitted','C93_reset','C93_range','C93_failed_observed','C93_claim_refuted'],'False of the code: before the first fit the push-forward is drawn unweighted; a set_observed that raises leaves the new distribution to be drawn. Proved right after a fit.')
T['C94']=('partial',['C94_exact','C94_plain_partial','C94_log_reversed','C94_log_mixed','C94_needs_prior','C94_returns','C94_claim_refuted'],'False of the code in logarithmic mode: the log posterior is used as weights, which reverses the order or raises ValueError. Proved exactly for every history and, in plain mode, the order.')
T['C95']=('partial',['C95_exact','C95_after_fit_partial','C95_unfitted','C95_needs_likelihood','C95_claim_refuted'],'False of the code: not fitted since the last set_prior or set_likelihood, the data are weighted equally. Proved after a fit.')
T['C96']=('partial',['C96_raises','C96_distances_partial','C96_stale','C96_stale_distances','C96_one_dim','C96_claim_refuted'],'False of the code: solve records no chain (C20), so get_errors raises ValueError after every history; on an object that holds chains the distances are right at the first call only (cached by length), and wrong for a 1-D reference.')
T['C97']=('partial',['C97_error_partial','C97_plot_chain_raises','C97_claim_refuted'],'False of the code: plot_chain passes keywords plot_contours does not have and always raises. plot_chain_error is proved.')
T['C98']=('partial',['C98_exact','C98_first_partial','C98_needs_measurements','C98_one_coordinate','C98_claim_refuted'],'False of the code: the random choice is ignored, always the first samples are drawn; with sensors of one coordinate (the default layout) it raises. The rest is proved exactly.')
T['C99']=('partial',['C99_scatter','C99_exact','C99_all_partial','C99_times','C99_given','C99_claim_refuted'],'False of the code: the selection is not applied to the data, and data of several times raise ValueError. Proved exactly.')
T['C100']=('proved',['C100_pca','C100_standardised'],'For every singular value decomposition the library may compute (existence proved), including the variational characterisation.')
T['C101']=('partial',['C101_svd_partial','C101_claim_refuted'],'False of the code: the documented keyword arguments are ignored. The rest is proved.')
T['C102']=('proved',['C102_units'],'')
T['C103']=('proved',['C103_pca_svd','C103_too_many','C103_svd_many'],'The routines behind PCA and np.linalg.svd may differ.')
T['C104']=('partial',['C104_problem_partial','C104_number_raises','C104_integer_raises','C104_shape_raises','C104_claim_refuted'],'False of the code: one number as std_dev is not spread over several quantities (AssertionError), an integer is rejected always, and without `repeated` other numbers of data than num_qoi are rejected. The rest is proved exactly.')
T['C105']=('proved',['C105_covariances','C105_empty','C105_seeded'],'The data-side covariance sigma^2/N for linearly independent operators. The plot is external.')
T['C106']=('proved',['C106_default_estimate'],'With the concrete kernel density estimate, no assumption on external code left beyond its formula.')
T['C107']=('partial',['C107_exact','C107_tables','C107_wide','C107_tall','C107_claim_refuted'],'False of the code: only square problems return, and the rank operators are not truncations (C61). Everything returned is characterised exactly.')
T['C108']=('partial',['C108_exact','C108_pass','C108_unit_partial','C108_outside','C108_claim_refuted','normVal_eq'],'False of the code for a domain disjoint from [0, 1]: the samples are always uniform on [0, 1], so the Bayes problem has no mass and raises ValueError. For domains that meet the samples everything returned and drawn is characterised.')

T['C109']=('proved',['C109_value','C109_minimiser','C109_line'],'')
T['C110']=('partial',['C110_poisson_partial','C110_adcirc_partial','C110_poisson_raises','C110_adcirc_raises','C110_claim_refuted'],'False of the code: std_dev is ignored, the deviation is always 0.05, and a data set that stores a field passed by value raises. The rest is proved.')
T['C111']=('proved',['C111_wme','C111_reduced'],'')
T['C112']=('proved',['Poisson.C112_order','Poisson.C112_trials','Poisson.C112_seeded','Poisson.C112_trial_returns','Poisson.C112_returns','Poisson.C112_kde','Poisson.C112_returns_scipy','Poisson.C112_all_sensors'],'Drawing, scipy.optimize.minimize and the colour map of the raw solution are external. Slicing with N below 2 is not part of the claim of returning.')
T['C113']=('partial',['Poisson.C113_sol','Poisson.C113_default_groups','Poisson.C113_too_many_groups','Poisson.C113_returns','Poisson.C113_returns_scipy','Poisson.C113_seeded_partial','Poisson.C113_seeded_estimate_partial','Poisson.C113_seed_claim_refuted'],'False of the code: the seed is not given to the generator that orders the sensors, so with order random the figures depend on its state. What is returned and drawn is characterised; with another order a seed fixes everything, with the random order it fixes the estimate when the two largest singular values are simple.')
T['C114']=('partial',['ExpDecay.C114_exact_partial','ExpDecay.C114_rejects','ExpDecay.C114_closest','ExpDecay.C114_inverse','ExpDecay.C114_claim_refuted'],'False of the code: time_range[0] is ignored, so times before it are returned when t_start is smaller. The rest is proved exactly.')
T['C115']=('partial',['ExpDecay.C115_decay_never','ExpDecay.C115_decay_type_error','ExpDecay.C115_temporal_exact','ExpDecay.C115_decay_claim_refuted','ExpDecay.C115_temporal_claim_refuted'],'False of the code: exp_decay_2D raises for every input (TypeError for proper ones) and identity_1D_temporal_prob raises ValueError for every input. Both are proved for all arguments.')
T['C116']=('proved',['Adcirc.C116_window','Adcirc.C116_same_times','Adcirc.C116_empty','Adcirc.C116_returns','Adcirc.C116_kde','Adcirc.C116_returns_scipy','Adcirc.C116_history'],'Drawing and the kernel density estimate are external; saving is modelled by the names of the files written.')
T['C117']=('partial',['Adcirc.C117_windows','Adcirc.C117_returns','Adcirc.C117_returns_scipy','Adcirc.C117_four_windows','Adcirc.C117_overwritten','Adcirc.C117_files_claim_refuted','Adcirc.C117_mesh_exact','Adcirc.C117_mesh_partial','Adcirc.C117_mesh_claim_refuted','Adcirc.C117_seeded'],'False of the code: the learned quantities of all windows are saved under one literal name, so all but the last are lost; the mesh figure shows wind_speed_mult_0 whatever is requested; more than three windows raise IndexError in the time series figure; sigma is ignored (the deviation is 0.05). The windows, rows, seeds and when it returns are proved.')
T['C118']=('partial',['Contours.C118_figures', 'Contours.C118_points', 'Contours.C118_line_exact', 'Contours.C118_documented_partial', 'Contours.C118_claim_refuted', 'Contours.C118_defaults', 'Contours.C118_requested', 'Contours.C118_default_run', 'Contours.C118_several'],'False of the code: the solution contour is not the solution set unless the data equal the offset or the sensitivities are equal (the bug of C68); the misfit uses the offset twice (the bug of C15); several observations raise ValueError once any figure is requested. Which figures, surfaces, points, files and defaults is proved.')
T['C119']=('partial',['Fenics.C119_truth', 'Fenics.C119_reads', 'Fenics.C119_sample_exact', 'Fenics.C119_sample_partial', 'Fenics.C119_claim_refuted'],'False of the code on the last interval: the solver lets the boundary condition of a sample go to 1 at the end, the figures and the spline objective to 0. FEniCS itself is external.')
T['C120']=('proved',['Fenics.C120_generated', 'Fenics.C120_inside', 'Fenics.C120_returns', 'Fenics.C120_seeded', 'Fenics.C120_errors', 'Fenics.C120_names'],'FEniCS is external (any map from boundary expressions to surfaces); the disk is a map from paths to contents.')
T['C121']=('proved',['Fenics.C121_load', 'Fenics.C121_trials'],'The deviation of the noise is 0.05 whatever is asked for (C110).')
T['C122']=('partial',['Cli.C122_solve', 'Cli.C122_solve_returns', 'Cli.C122_trials', 'Cli.C122_trials_returns', 'Cli.C122_any_order', 'Cli.C122_seeded', 'Cli.C122_python_partial', 'Cli.C122_figures_claim_refuted'],'False of the code for the figures: click passes a tuple, which run_2d_poisson_sol wraps in a list, so that poisson_solve never draws anything. The rest is proved.')
T['C123']=('partial',['Paper.C123_returns', 'Paper.C123_data', 'Paper.C123_table', 'Paper.C123_windows', 'Paper.C123_overwritten', 'Paper.C123_files_claim_refuted', 'Paper.C123_scratch_exact', 'Paper.C123_scratch_claim_refuted', 'Paper.C123_seeded_partial', 'Paper.C123_seed_claim_refuted', 'Paper.C123_tides_fixed'],'False of the code: where FEniCS is installed and the data file is missing, every run fails, because the generated data are saved under another name; figure 5 overwrites the comparison of figure 3; the generator of random is not seeded for figure 7, so its groups of sensors differ between runs with the same seed. That it returns, the data, the table, the windows and the rest of the reproducibility are proved.')
T['C124']=('partial',['Cli.C124_comparison', 'Cli.C124_comparison_defaults', 'Cli.C124_comparison_estimates', 'Cli.C124_integers', 'Cli.C124_seed_range', 'Cli.C124_bounds', 'Cli.C124_negative', 'Cli.C124_domain_claim_refuted', 'Cli.C124_high_dim', 'Cli.C124_high_dim_seeded', 'Cli.C124_seed_claim_refuted', 'Cli.C124_wme', 'Cli.C124_wme_seeded', 'Cli.C124_contours', 'Cli.C124_contours_default', 'Cli.C124_contours_rejects', 'Cli.C124_cov_claim_refuted', 'Cli.C124_cov_list', 'Cli.C124_generate', 'Cli.C124_generate_without', 'Cli.C124_pipeline'],'False of the code: a domain of comparison with bounds that are not integers is a usage error; without --seed high_dim_linear does not use its default seed, because the seed of the group (none) replaces it; a covariance of the data given as a one-dimensional list in the JSON file, as the documentation allows for other arguments, fails. The rest is proved.')
T['C125']=('partial',['PlotIo.C125_restored','PlotIo.C125_true','PlotIo.C125_caught','PlotIo.C125_works','PlotIo.C125_save_fails','PlotIo.C125_plot_fails','PlotIo.C125_import','PlotIo.C125_session_exact','PlotIo.C125_figures_claim_refuted','PlotIo.C125_files_claim_refuted'],'False of the code: an import closes the figures the user has open and deletes a file .test_fig.png of the user. The rest is proved for every point of failure.')
T['C126']=('partial',['PlotIo.C126_saves','PlotIo.C126_raises','PlotIo.C126_absolute','PlotIo.C126_script','PlotIo.C126_inside_claim_refuted','PlotIo.C126_names_claim_refuted'],'False of the code: an absolute file name is written outside save_path, and names with and without the default extension are the same file. For file names with an extension and no slash everything is proved. Rendering is external.')
T['C127']=('partial',['PlotIo.C127_new','PlotIo.C127_given','PlotIo.C127_few_markers','PlotIo.C127_axes_partial','PlotIo.C127_axes_claim_refuted'],'False of the code: the points go to the current axes of the session, whatever ax is. The rest is proved.')
T['C128']=('proved',['C128_data_consistent','C128_updated','C128_projected'],'The distributions are those of Mathlib (multivariateGaussian).')
T['C129']=('proved',['C129_mode'],'')
T['C130']=('proved',['C130_posterior'],'')
T['C131']=('proved',['C131_normal','C131_limit'],'That the draws of the generator are independent and (standard normal) identically distributed is a hypothesis on the law of its state; a generator that meets it is constructed.')
T['C132']=('proved',['C132_limit','C132_one_iff','C132_linear','C132_importance'],'Samples and weights are modelled as values of random variables; the distribution objects evaluate the given densities.')
T['C133']=('proved',['C133_law','C133_identified','C133_consistent'],'Exact arithmetic; the noise is a family of random variables.')
T['C134']=('proved',['C134_converges','C134_rate'],'Predicted densities are those of the distribution passed to set_predicted, not the kernel density estimate.')
T['C135']=('proved',['C135_mud','C135_rate'],'Initial and observed distributions have independent entries, since the code takes the product of the columns of pdf.')
T['C136']=('proved',['C136_converges','C136_map'],'set_likelihood with log=False.')
T['C137']=('proved',['C137_wme','C137_sharp','C137_zero','binary_standard','rounded_exact'],'Standard model of rounding (any relative error u < 1 per operation, any order of summation); exponent range unbounded. binary_standard shows that rounding to p binary digits with pairwise summation meets it; rounded_exact that without rounding the functions are those of the exact model.')
T['C138']=('proved',['C138_near','C138_same'],'Rounding model of C137; the densities are the values the pdf objects return.')
T['C139']=('proved',['C139_ratio','C139_sharp'],'Rounding model of C137.')
T['C140']=('proved',['C140_plain','C140_log'],'Rounding model of C137.')
T['C141']=('proved',['C141_linear','C141_bounded','C141_drift'],'The error of one mud_sol update is a hypothesis; its size for LAPACK is not derived.')
T['C142']=('proved',['C142_mud','C142_map','C142_ls','C142_lipschitz','C142_jump'],'Exact arithmetic.')
T['C143']=('proved',['C143_consistent','C143_confined','C143_linear'],'scipy.stats.gaussian_kde by its model scipyEnv (C79); convergence is weak convergence, tested on all bounded continuous functions; for uniform convergence of the density see C144.')
T['C144']=('proved',['C144_uniform','C144_linear'],'scipy.stats.gaussian_kde by its model scipyEnv (C79). Any number of outputs: Bernstein inequality on a grid, kernels of fixed shape below and above the data-dependent one.')
T['C145']=('partial',['C145_interior_partial','C145_unit','C145_boundary','C145_claim_refuted'],'False in general: the kernel estimate halves the density of the outputs at the end of an interval, so uniform samples on [0, 1] with the observed density norm(0.75, 0.3) yield estimates that converge to 1, not 0.75 (C145_claim_refuted, C145_boundary). Proved when the observed density vanishes outside a compact set where the density of the outputs is continuous and positive (C145_interior_partial, with weights), and for uniform samples on the unit interval when the peak of the observed density is more than twice its values at both ends (C145_unit).')
T['C146']=('proved',['C146_expected_ratio','C146_unit'],'Scott bandwidth, exact reals.')
T['C147']=('proved',['C147_update','C147_given','C147_outputs'],'C147_outputs: without predictability the outputs of the updated distribution are the observed distribution restricted to the set where the density of the outputs is positive.')
T['C148']=('proved',['C148_nearest','C148_almost_surely','C148_unique'],'Scott bandwidth, exact reals.')
T['C149']=('proved',['C149_expected_ratio','C149_almost_surely','C149_exact_sample'],'Scott bandwidth, exact reals.')
T['C150']=('proved',['C150_least_squares','C150_log','C150_outside'],'')
T['C151']=('partial',['C151_partial','C151_claim_refuted','C151_mud','C151_map'],'False in general: the weighted mean error only sees the mean of the differences, so mud_problem prefers a sample predicting 1, -1, 1, ... to one that is always off by 1/10; true when every sample predicts one value for all measurements.')
T['C152']=('partial',['C152_param','C152_obs','C152_bayes_param','C152_bayes_obs','C152_nonempty_partial','C152_claim_refuted','C152_reserved','C152_defaults','C152_obs_defaults','C152_bayes_defaults','C152_bayes_obs_defaults'],'False in part: DensityProblem.plot_obs_space tests "if ob_opts:", so an empty dictionary also suppresses the curve (likewise true_opts of both plot_param_space); the documented defaults (dashed, width 4, "Initial") are not those used; BayesProblem swallows an option ylim. Everything else is proved.')
T['C153']=('partial',['C153_exact','C153_claim_refuted','C153_error'],'False of the last series, which is always drawn "r-" with alpha and the sensor label; exact for the others. Matplotlib is assumed to accept the keywords.')
T['C154']=('partial',['C154_exact','C154_calls','C154_refuted','C154_claim_refuted'],'False: the label of the marker is always the name of the point and is written into the dictionary of the caller; nothing else is changed. Matplotlib is assumed to accept the keywords.')
T['C155']=('partial',['C155_exact','C155_default_raises','C155_claim_refuted'],'True for options that matplotlib accepts; the default plot_opts contain fs, which is not a property of a line, so the default call raises AttributeError (that matplotlib rejects fs is a hypothesis on external code).')
T['C156']=('partial',['C156_setters_partial','C156_set_weights','C156_set_initial','C156_set_observed','C156_set_predicted','C156_set_predicted_weights','C156_fit_keeps','C156_retry','C156_claim_refuted'],'False in part: a failed estimate() has set the default initial distribution, so that a predicted distribution set later is kept instead of discarded; a failed set_predicted(weights=...) has set the weights; a failed set_observed leaves its distribution for plot_obs_space. Proved for the other setters, and that every failure is repeatable.')
T['C157']=('partial',['C157_later_partial','C157_set_prior','C157_set_likelihood','C157_retry','C157_claim_refuted'],'False only of set_likelihood with the other value of log: the log flag is switched before the density is evaluated. Proved for every other call at any point of any history.')
T['C158']=('partial',['C158_assign_partial','C158_data_exact','C158_measurements','C158_claim_refuted'],'True with one exception: assigning an array without dimensions to data sets sensors to [0]. measurements_from_reference that raises has stored its arguments.')
T['C159']=('partial',['C159_failed_load','C159_claim_refuted'],'False: load assigns one attribute after the other. Proved: the object is the one after the attributes before the defective one.')
T['C160']=('partial',['C160_load_exact','C160_reload_exact','C160_claim_refuted'],'False: the new domain is checked against the old samples, so a second data set - or the same one, if it has a sample outside its domain - is refused. Exact otherwise, for data sets with the entries of C75.')
T['C161']=('partial',['C161_map_batches','C161_map_order','C161_map_joint','C161_mud_uncorrelated_partial','C161_mud_exact','C161_claim_refuted'],'True for MAP, any number of batches in any order. False for MUD: a later batch undoes the fit to an earlier one unless the predictions of the two are uncorrelated under the initial covariance; exactly then it holds whatever the data.')
T['C162']=('proved',['C162_solve_order','C162_observations','C162_quantities','C162_stacked','C162_repeated','C162_same_std','C162_wme'],'In exact arithmetic; with exceptions (singular covariances, invalid deviations) the same exception.')
T['C163']=('proved',['C163_uncorrelated','C163_mud','C163_mud_alt','C163_map','C163_map_only','C163_iterate','C163_mud_batches','C163_map_batches','C163_unused_parameter'],'In exact arithmetic. Least squares is not included: it does not use the initial distribution.')
T['C164']=('proved',['C164_mud','C164_mud_quantity','C164_map_below_mud','C164_map_predictions'],'In exact arithmetic. Variances are those of the Gaussian measures of Mathlib.')
T['C165']=('proved',['C165_wme_average','C165_wme_pooled','C165_average','C165_pooled','C165_two'],'In exact arithmetic, with pinv the Moore-Penrose inverse.')
T['C166']=('proved',['C166_stored','C166_returned','C166_fresh','C166_covariances'],'Calls computes is spelled out in the definition ComputesSolution: the method was asked for and its solve on the fresh object returns, or all were asked for and all up to it return.')
T['C167']=('proved',['C167_map','C167_mud','C167_map_mud'],'The laws of the parameters and of the noise are Mathlib normal distributions; exact arithmetic. C167_map needs positive definite covariances (otherwise solve raises), C167_mud positive semidefinite ones only.')
T['C168']=('partial',['C168_map','C168_mud_claim_refuted','C168_mud_partial'],'(a) holds (C168_map). (b) does not: MUD follows the data whatever their quality, so with two observations with correlated errors, both more precise than the predictions, leaving one out can give a smaller variance (C168_mud_claim_refuted). What holds: for the same observations less noise gives smaller updated covariances (C168_mud_partial).')
T['C169']=('proved',['C169_map','C169_mud','C169_intervals','C169_mud_intervals'],'Mathlib normal distributions; exact arithmetic. MAP needs positive definite covariances (otherwise solve raises), MUD positive semidefinite ones only.')
T['C170']=('partial',['C170_settles','C170_converges','C170_any_start','C170_visited_rows','C170_mud_claim_refuted','C170_order_claim_refuted'],'(a) holds. (b) and (c) do not: with two measurements of one parameter that disagree, every epoch ends at the one visited last (C170_mud_claim_refuted, C170_order_claim_refuted). For consistent systems (b) is C19.')
T['C171']=('proved',['C171_rows','C171_covariance','C171_parameters','C171_offset','C171_numbering'],'Exact arithmetic. T need not be invertible or square.')
T['C172']=('proved',['C172_map_region','C172_mud_region','C172_misfit'],'Mathlib normal distributions; chiSq n is the law of the sum of squares of n independent standard normal variables; exact arithmetic.')
T['C173']=('partial',['C173_map','C173_map_tendsto','C173_mud_claim_refuted'],'(a) holds. (b) holds for attainable data (C85) but not in general: MUD does not know the noise covariance; two measurements of one parameter with different precisions refute it (C173_mud_claim_refuted).')
T['C174']=('proved',['C174_selection','C174_estimates'],'For runs without data_weights (with them the call fails or weighs samples, C56), a non-zero std_dev, and masks that select at least one time and one sensor.')
T['C175']=('proved',['C175_mud_map','C175_mud_ls','C175_isotropic','C175_determined'],'In exact arithmetic.')
T['C176']=('proved',['C176_mud_problem','C176_closest'],'For a non-zero std_dev and masks that select at least one time and one sensor (for the closest sample also one sample). In exact arithmetic.')
T['C177']=('partial',['C177_wme','C177_wme_default','C177_partial','C177_claim_refuted'],'(a) holds (for (a) without a standard deviation the data are not all equal). (b) holds while all standard deviations are above the absolute bound 1e-14 of transform_linear_map (C177_partial); it is false in general, since a larger unit of length makes a valid problem raise AssertionError (C177_claim_refuted).')
T['C178']=('partial',['C178_expected_ratio','C178_mud_partial','C178_mud_claim_refuted'],'The expected ratios are the same. The MUD points are the same if merging multiplies all weights by one number and one sample alone has the largest value (C178_mud_partial), but not in general: the weight is a factor of the value that is maximised, so samples 0, 0, 1 of weight 1 with ratios 2, 2, 3 give 1, and the samples 0, 1 with weights 2, 1 give 0 (C178_mud_claim_refuted). The predicted density is given explicitly: the default kernel density estimate is an external parameter of the model.')
