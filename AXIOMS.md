# Axioms of the theorems named in MANIFEST.json

Output of `#print axioms`.  No theorem depends on anything other than
`propext`, `Classical.choice` and `Quot.sound`.

* `Pylogit.OneHotPartition.indicates`: propext, Classical.choice, Quot.sound
* `Pylogit.Units.exNine_ridge_units`: propext, Classical.choice, Quot.sound
* `Pylogit.abc_endpoint_scaled`: propext, Classical.choice, Quot.sound
* `Pylogit.abc_endpoints_differ`: propext, Classical.choice, Quot.sound
* `Pylogit.abc_interval_degenerate`: propext, Classical.choice, Quot.sound
* `Pylogit.abc_interval_degenerate_models`: propext, Classical.choice, Quot.sound
* `Pylogit.abc_interval_of_mean`: propext, Classical.choice, Quot.sound
* `Pylogit.abc_interval_of_quadratic`: propext, Classical.choice, Quot.sound
* `Pylogit.abc_interval_other_estimate`: propext, Classical.choice, Quot.sound
* `Pylogit.abc_minus_weights`: propext, Classical.choice, Quot.sound
* `Pylogit.abc_plus_weights`: propext, Classical.choice, Quot.sound
* `Pylogit.abc_quadratic_linear`: propext, Classical.choice, Quot.sound
* `Pylogit.abc_quadratic_scaled`: propext, Classical.choice, Quot.sound
* `Pylogit.abc_quadratic_shape_error`: propext, Classical.choice, Quot.sound
* `Pylogit.acceleration_bound`: propext, Classical.choice, Quot.sound
* `Pylogit.acceleration_const`: propext, Classical.choice, Quot.sound
* `Pylogit.acceleration_neg`: propext, Classical.choice, Quot.sound
* `Pylogit.acceleration_scale`: propext, Classical.choice, Quot.sound
* `Pylogit.acceleration_shift`: propext, Classical.choice, Quot.sound
* `Pylogit.accepted_nests_map`: propext, Classical.choice, Quot.sound
* `Pylogit.accepted_spec_typed`: propext, Classical.choice, Quot.sound
* `Pylogit.addMixingNames_idempotent`: propext, Classical.choice, Quot.sound
* `Pylogit.aic_bic`: propext, Classical.choice, Quot.sound
* `Pylogit.alternative_numbers_columns`: propext, Classical.choice, Quot.sound
* `Pylogit.alternative_specific_fits_better`: propext, Classical.choice, Quot.sound
* `Pylogit.always_chosen_separates`: propext, Classical.choice, Quot.sound
* `Pylogit.asym_curvature_partial`: propext, Classical.choice, Quot.sound
* `Pylogit.asym_derivs_correct_partial`: propext, Classical.choice, Quot.sound
* `Pylogit.asym_derivs_same`: propext, Classical.choice, Quot.sound
* `Pylogit.asym_fits_better`: propext, Classical.choice, Quot.sound
* `Pylogit.asym_gradient_no_intercepts_partial`: propext, Classical.choice, Quot.sound
* `Pylogit.asym_gradient_partial`: propext, Classical.choice, Quot.sound
* `Pylogit.asym_hessian_not_second_derivative`: propext, Classical.choice, Quot.sound
* `Pylogit.asym_increasing`: propext, Classical.choice, Quot.sound
* `Pylogit.asym_intercept_jacobian`: propext, Classical.choice, Quot.sound
* `Pylogit.asym_no_memory`: propext, Classical.choice, Quot.sound
* `Pylogit.asym_not_differentiable_at_zero`: propext, Classical.choice, Quot.sound
* `Pylogit.asym_null`: propext, Classical.choice, Quot.sound
* `Pylogit.asym_null_plain`: propext, Classical.choice, Quot.sound
* `Pylogit.asym_objective_partial`: propext, Classical.choice, Quot.sound
* `Pylogit.asym_objective_plain_partial`: propext, Classical.choice, Quot.sound
* `Pylogit.asym_own`: propext, Classical.choice, Quot.sound
* `Pylogit.asym_plain_no_memory`: propext, Classical.choice, Quot.sound
* `Pylogit.asym_plain_ridge_attained`: propext, Classical.choice, Quot.sound
* `Pylogit.asym_recoded`: propext, Classical.choice, Quot.sound
* `Pylogit.asym_ridge_attained`: propext, Classical.choice, Quot.sound
* `Pylogit.asym_same`: propext, Classical.choice, Quot.sound
* `Pylogit.asym_shape_jacobian`: propext, Classical.choice, Quot.sound
* `Pylogit.asym_shares`: propext, Classical.choice, Quot.sound
* `Pylogit.asym_starts_at_mnl`: propext, Classical.choice, Quot.sound
* `Pylogit.asym_two_alternatives_worse`: propext, Classical.choice, Quot.sound
* `Pylogit.asym_units`: propext, Classical.choice, Quot.sound
* `Pylogit.asym_zero_shape_natural`: propext, Classical.choice, Quot.sound
* `Pylogit.asym_zero_shape_probs`: propext, Classical.choice, Quot.sound
* `Pylogit.bca_bias_direction`: propext, Classical.choice, Quot.sound
* `Pylogit.bca_interval_formula`: propext, Classical.choice, Quot.sound
* `Pylogit.bca_interval_ordered`: propext, Classical.choice, Quot.sound
* `Pylogit.bca_interval_ordered_six`: propext, Classical.choice, Quot.sound
* `Pylogit.bca_interval_reduces`: propext, Classical.choice, Quot.sound
* `Pylogit.bca_interval_reflected`: propext, Classical.choice, Quot.sound
* `Pylogit.bca_interval_rescaled`: propext, Classical.choice, Quot.sound
* `Pylogit.bca_interval_ties`: propext, Classical.choice, Quot.sound
* `Pylogit.bca_levels_reduce`: propext, Classical.choice, Quot.sound
* `Pylogit.bfgs_in_gradientSpan`: propext, Classical.choice, Quot.sound
* `Pylogit.bfgs_keeps_constrained`: propext, Classical.choice, Quot.sound
* `Pylogit.bic_gt_aic_iff`: propext, Classical.choice, Quot.sound
* `Pylogit.bic_gt_aic_iff_eight`: propext, Classical.choice, Quot.sound
* `Pylogit.binary64_accurate`: propext, Classical.choice, Quot.sound
* `Pylogit.binary64_nested_sum_partial`: propext, Classical.choice, Quot.sound
* `Pylogit.binary64_probs_sum`: propext, Classical.choice, Quot.sound
* `Pylogit.boot_init_iff`: propext, Quot.sound
* `Pylogit.boot_refuses_unnamed_shapes`: propext, Quot.sound
* `Pylogit.bootstrap_changes_kwargs`: propext, Classical.choice, Quot.sound
* `Pylogit.bootstrap_choice_statistics`: propext, Classical.choice, Quot.sound
* `Pylogit.bootstrap_dataframe`: propext, Classical.choice, Quot.sound
* `Pylogit.bootstrap_dataframe_refusals`: propext, Quot.sound
* `Pylogit.bootstrap_expected_count`: propext, Classical.choice, Quot.sound
* `Pylogit.bootstrap_id_array`: propext, Quot.sound
* `Pylogit.bootstrap_objectives_unbiased`: propext, Classical.choice, Quot.sound
* `Pylogit.bootstrap_replicates`: propext, Classical.choice, Quot.sound
* `Pylogit.bootstrap_replicates_maximise`: propext, Classical.choice, Quot.sound
* `Pylogit.bootstrap_sample_moments`: propext, Classical.choice, Quot.sound
* `Pylogit.bootstrap_sample_shares`: propext, Classical.choice, Quot.sound
* `Pylogit.bootstrap_samples_iff`: propext, Classical.choice, Quot.sound
* `Pylogit.bootstrap_samples_model`: propext, Classical.choice, Quot.sound
* `Pylogit.bootstrap_samples_rng`: propext, Classical.choice, Quot.sound
* `Pylogit.bootstrap_samples_seed_refused`: propext, Classical.choice, Quot.sound
* `Pylogit.bootstrap_samples_seeded`: propext, Classical.choice, Quot.sound
* `Pylogit.bootstrap_samples_stream`: propext, Classical.choice, Quot.sound
* `Pylogit.bootstrap_seed_refused`: propext
* `Pylogit.bootstrap_separated`: propext, Classical.choice, Quot.sound
* `Pylogit.bootstrap_shares_do_not_vary`: propext, Classical.choice, Quot.sound
* `Pylogit.bootstrap_units`: propext, Classical.choice, Quot.sound
* `Pylogit.calcNestedProbs_contract`: propext, Classical.choice, Quot.sound
* `Pylogit.calcProbabilities_contract`: propext, Classical.choice, Quot.sound
* `Pylogit.checkInitLength_iff`: propext, Quot.sound
* `Pylogit.checkInitLength_iff_sized`: propext, Quot.sound
* `Pylogit.checkParamListArg_arrays`: propext, Classical.choice, Quot.sound
* `Pylogit.checkSpecDict_ok_iff`: propext, Classical.choice, Quot.sound
* `Pylogit.checkSpecDict_typeError_iff`: propext, Classical.choice, Quot.sound
* `Pylogit.checkWeights_error`: propext, Classical.choice, Quot.sound
* `Pylogit.checkWeights_iff`: propext, Classical.choice, Quot.sound
* `Pylogit.chi_square_fit`: propext, Classical.choice, Quot.sound
* `Pylogit.chi_square_grows_with_draws`: propext, Classical.choice, Quot.sound
* `Pylogit.chi_square_nonneg`: propext, Classical.choice, Quot.sound
* `Pylogit.chi_square_sums_draws`: propext, Classical.choice, Quot.sound
* `Pylogit.chi_square_value`: propext, Classical.choice, Quot.sound
* `Pylogit.chosenRowToObs_entry`: propext, Classical.choice, Quot.sound
* `Pylogit.chosenRowToObs_single`: propext, Classical.choice, Quot.sound
* `Pylogit.chosen_only_agrees`: propext, Classical.choice, Quot.sound
* `Pylogit.chosen_ordered_of_contiguous`: propext, Classical.choice, Quot.sound
* `Pylogit.chosen_probability_is_long_probability`: propext, Classical.choice, Quot.sound
* `Pylogit.clipping_beats_estimate`: propext, Classical.choice, Quot.sound
* `Pylogit.clog_curvature_partial`: propext, Classical.choice, Quot.sound
* `Pylogit.clog_deriv_error_small`: propext, Classical.choice, Quot.sound
* `Pylogit.clog_deriv_wrong_above`: propext, Classical.choice, Quot.sound
* `Pylogit.clog_derivs_correct_partial`: propext, Classical.choice, Quot.sound
* `Pylogit.clog_derivs_same`: propext, Classical.choice, Quot.sound
* `Pylogit.clog_gradient_no_intercepts_partial`: propext, Classical.choice, Quot.sound
* `Pylogit.clog_gradient_partial`: propext, Classical.choice, Quot.sound
* `Pylogit.clog_hessian_missing_term`: propext, Classical.choice, Quot.sound
* `Pylogit.clog_hessian_missing_term_intercepts`: propext, Classical.choice, Quot.sound
* `Pylogit.clog_hessian_not_second_derivative`: propext, Classical.choice, Quot.sound
* `Pylogit.clog_increasing`: propext, Classical.choice, Quot.sound
* `Pylogit.clog_intercept_jacobian`: propext, Classical.choice, Quot.sound
* `Pylogit.clog_no_memory`: propext, Classical.choice, Quot.sound
* `Pylogit.clog_null`: propext, Classical.choice, Quot.sound
* `Pylogit.clog_null_plain`: propext, Classical.choice, Quot.sound
* `Pylogit.clog_objective_partial`: propext, Classical.choice, Quot.sound
* `Pylogit.clog_objective_plain_partial`: propext, Classical.choice, Quot.sound
* `Pylogit.clog_own`: propext, Classical.choice, Quot.sound
* `Pylogit.clog_plain_no_memory`: propext, Classical.choice, Quot.sound
* `Pylogit.clog_recoded`: propext, Classical.choice, Quot.sound
* `Pylogit.clog_ridge_not_attained`: propext, Classical.choice, Quot.sound
* `Pylogit.clog_same`: propext, Classical.choice, Quot.sound
* `Pylogit.clog_shares`: propext, Classical.choice, Quot.sound
* `Pylogit.clog_units`: propext, Classical.choice, Quot.sound
* `Pylogit.concat_split`: propext, Classical.choice, Quot.sound
* `Pylogit.conf_int_consistent`: propext, Classical.choice, Quot.sound
* `Pylogit.conf_int_nested`: propext, Classical.choice, Quot.sound
* `Pylogit.conf_int_selection`: propext, Classical.choice, Quot.sound
* `Pylogit.conf_intervals_all`: propext, Classical.choice, Quot.sound
* `Pylogit.conf_intervals_all_failed`: propext, Classical.choice, Quot.sound
* `Pylogit.conf_intervals_refusals`: propext, Classical.choice, Quot.sound
* `Pylogit.conf_intervals_single`: propext, Classical.choice, Quot.sound
* `Pylogit.conf_percentage_accepted`: propext, Classical.choice, Quot.sound
* `Pylogit.conf_percentage_levels`: propext, Classical.choice, Quot.sound
* `Pylogit.constant_variable_refused`: propext, Classical.choice, Quot.sound
* `Pylogit.constrained_gradient`: propext, Classical.choice, Quot.sound
* `Pylogit.constrained_positions`: propext, Classical.choice, Quot.sound
* `Pylogit.constrained_results_nan`: propext, Classical.choice, Quot.sound
* `Pylogit.construction_iff`: propext, Classical.choice, Quot.sound
* `Pylogit.construction_ignores_alternative_numbers`: propext, Classical.choice, Quot.sound
* `Pylogit.construction_ignores_listing_order`: propext, Classical.choice, Quot.sound
* `Pylogit.construction_refusals`: propext
* `Pylogit.contiguity_iff_nondecreasing`: propext, Classical.choice, Quot.sound
* `Pylogit.contiguity_incomplete`: propext, Classical.choice, Quot.sound
* `Pylogit.contiguity_sound_partial`: propext, Classical.choice, Quot.sound
* `Pylogit.convertMixingNames_spec`: propext, Classical.choice, Quot.sound
* `Pylogit.copies_exist`: propext, Classical.choice, Quot.sound
* `Pylogit.copies_fisher`: propext, Classical.choice, Quot.sound
* `Pylogit.copies_gradient`: propext, Classical.choice, Quot.sound
* `Pylogit.copies_hessian`: propext, Classical.choice, Quot.sound
* `Pylogit.copies_loglik`: propext, Classical.choice, Quot.sound
* `Pylogit.copies_probs`: propext, Classical.choice, Quot.sound
* `Pylogit.createExpandedDesign_contract`: propext, Classical.choice, Quot.sound
* `Pylogit.create_adds_model`: propext, Classical.choice, Quot.sound
* `Pylogit.create_from_data`: propext, Classical.choice, Quot.sound
* `Pylogit.created_model_holds_table`: propext, Classical.choice, Quot.sound
* `Pylogit.default_extract_inside`: propext, Classical.choice, Quot.sound
* `Pylogit.default_extract_length`: propext, Classical.choice, Quot.sound
* `Pylogit.default_extract_outside`: propext, Classical.choice, Quot.sound
* `Pylogit.default_init_vals_misplaced`: propext, Classical.choice, Quot.sound
* `Pylogit.default_init_vals_missing`: propext, Classical.choice, Quot.sound
* `Pylogit.default_init_vals_outside`: propext, Classical.choice, Quot.sound
* `Pylogit.default_init_vals_partial`: propext, Classical.choice, Quot.sound
* `Pylogit.default_names`: propext, Classical.choice, Quot.sound
* `Pylogit.degenerate_nest_irrelevant`: propext, Classical.choice, Quot.sound
* `Pylogit.degenerate_nests`: propext, Classical.choice, Quot.sound
* `Pylogit.design_entries`: propext, Classical.choice, Quot.sound
* `Pylogit.design_success`: propext, Classical.choice, Quot.sound
* `Pylogit.duplicate_name_wiped`: propext, Classical.choice, Quot.sound
* `Pylogit.ensureNumChosen_iff_total`: propext, Classical.choice, Quot.sound
* `Pylogit.estimation_object_errors`: propext, Classical.choice, Quot.sound
* `Pylogit.estimation_object_iff`: propext, Classical.choice, Quot.sound
* `Pylogit.estimator_of_own_class`: propext, Classical.choice, Quot.sound
* `Pylogit.exLong_hyps`: propext, Classical.choice, Quot.sound
* `Pylogit.exLong_roundtrip`: propext, Classical.choice, Quot.sound
* `Pylogit.exPeople_gradient_norm`: propext, Classical.choice, Quot.sound
* `Pylogit.exThree_gradient_norm`: propext, Classical.choice, Quot.sound
* `Pylogit.exTwins_gradient_norm`: propext, Classical.choice, Quot.sound
* `Pylogit.exVarying_shape`: propext, Classical.choice, Quot.sound
* `Pylogit.expanded_utility`: propext, Classical.choice, Quot.sound
* `Pylogit.factory_type`: propext, Classical.choice, Quot.sound
* `Pylogit.failed_data_changes_nothing`: propext, Classical.choice, Quot.sound
* `Pylogit.failed_save_destroys`: propext, Classical.choice, Quot.sound
* `Pylogit.failed_store_mixture`: propext, Classical.choice, Quot.sound
* `Pylogit.file_as_good_as_table`: propext, Classical.choice, Quot.sound
* `Pylogit.file_model_is_independent`: propext, Classical.choice, Quot.sound
* `Pylogit.files_as_last_written`: propext, Classical.choice, Quot.sound
* `Pylogit.fisher_formula`: propext, Classical.choice, Quot.sound
* `Pylogit.fisher_info_both`: propext, Classical.choice, Quot.sound
* `Pylogit.fisher_info_icpt`: propext, Classical.choice, Quot.sound
* `Pylogit.fisher_info_none`: propext, Classical.choice, Quot.sound
* `Pylogit.fisher_info_shape`: propext, Classical.choice, Quot.sound
* `Pylogit.fisher_psd_partial`: propext, Classical.choice, Quot.sound
* `Pylogit.fisher_recoded`: propext, Classical.choice, Quot.sound
* `Pylogit.fisher_ridge_not_psd`: propext, Classical.choice, Quot.sound
* `Pylogit.fitInitVals_groups`: propext, Classical.choice, Quot.sound
* `Pylogit.fitInitVals_iff`: propext, Quot.sound
* `Pylogit.fitInitVals_sound`: propext
* `Pylogit.fitInitVals_vals`: propext
* `Pylogit.fit_after_sort_reads_mixture`: propext, Classical.choice, Quot.sound
* `Pylogit.fit_ignores_alternative_numbers`: propext, Classical.choice, Quot.sound
* `Pylogit.fit_ignores_increasing_numbers`: propext, Classical.choice, Quot.sound
* `Pylogit.fit_ignores_listing_order`: propext, Classical.choice, Quot.sound
* `Pylogit.fit_ignores_row_order`: propext, Classical.choice, Quot.sound
* `Pylogit.fit_ignores_weights`: propext, Classical.choice, Quot.sound
* `Pylogit.fit_maximises_table_logLik`: propext, Classical.choice, Quot.sound
* `Pylogit.fit_maximises_wide_logLik_any_order_partial`: propext, Classical.choice, Quot.sound
* `Pylogit.fit_maximises_wide_logLik_partial`: propext, Classical.choice, Quot.sound
* `Pylogit.fit_not_weighted`: propext, Classical.choice, Quot.sound
* `Pylogit.fit_reads_the_same_partial`: propext, Classical.choice, Quot.sound
* `Pylogit.fit_reports_estimates`: propext, Classical.choice, Quot.sound
* `Pylogit.fit_reports_ignore_alternative_numbers`: propext, Classical.choice, Quot.sound
* `Pylogit.fit_reports_ignore_increasing_numbers`: propext, Classical.choice, Quot.sound
* `Pylogit.fit_reports_ignore_listing_order`: propext, Classical.choice, Quot.sound
* `Pylogit.fit_rho_range`: propext, Classical.choice, Quot.sound
* `Pylogit.fit_stored`: propext, Classical.choice, Quot.sound
* `Pylogit.fit_units`: propext, Classical.choice, Quot.sound
* `Pylogit.fit_units_ridge`: propext, Classical.choice, Quot.sound
* `Pylogit.fits_beat_equal_shares`: propext, Classical.choice, Quot.sound
* `Pylogit.fits_ignore_left_out_alternative`: propext, Classical.choice, Quot.sound
* `Pylogit.fits_ignore_reference_alternative`: propext, Classical.choice, Quot.sound
* `Pylogit.fits_latest`: propext, Classical.choice, Quot.sound
* `Pylogit.fits_mixture`: propext, Classical.choice, Quot.sound
* `Pylogit.fixed_parameters`: propext, Classical.choice, Quot.sound
* `Pylogit.fl_add_inf`: propext, Classical.choice, Quot.sound
* `Pylogit.fl_add_nan_iff`: propext, Classical.choice, Quot.sound
* `Pylogit.fl_div_inf`: propext, Classical.choice, Quot.sound
* `Pylogit.fl_lt_iff`: propext, Classical.choice, Quot.sound
* `Pylogit.fl_mul_inf`: propext, Classical.choice, Quot.sound
* `Pylogit.fl_mul_nan_iff`: propext, Classical.choice, Quot.sound
* `Pylogit.fl_round_val`: propext, Classical.choice, Quot.sound
* `Pylogit.float_asym_finite`: propext, Classical.choice, Quot.sound
* `Pylogit.float_chosen_prob`: propext, Classical.choice, Quot.sound
* `Pylogit.float_chosen_underflow`: propext, Classical.choice, Quot.sound
* `Pylogit.float_clog_jump`: propext, Classical.choice, Quot.sound
* `Pylogit.float_clog_ne_nan`: propext, Classical.choice, Quot.sound
* `Pylogit.float_gradient_accurate`: propext, Classical.choice, Quot.sound
* `Pylogit.float_log_likelihood`: propext, Classical.choice, Quot.sound
* `Pylogit.float_loglik_accurate`: propext, Classical.choice, Quot.sound
* `Pylogit.float_long_panel`: propext, Classical.choice, Quot.sound
* `Pylogit.float_long_panel_flat`: propext, Classical.choice, Quot.sound
* `Pylogit.float_mixed_gradient`: propext, Classical.choice, Quot.sound
* `Pylogit.float_mixed_log_likelihood`: propext, Classical.choice, Quot.sound
* `Pylogit.float_mixer_weight`: propext, Classical.choice, Quot.sound
* `Pylogit.float_mnl_gradient`: propext, Classical.choice, Quot.sound
* `Pylogit.float_mnl_loglik`: propext, Classical.choice, Quot.sound
* `Pylogit.float_mnl_probs`: propext, Classical.choice, Quot.sound
* `Pylogit.float_mnl_reproducible`: propext, Classical.choice, Quot.sound
* `Pylogit.float_models_valid`: propext, Classical.choice, Quot.sound
* `Pylogit.float_naturalize`: propext, Classical.choice, Quot.sound
* `Pylogit.float_nested_order_reversed`: propext, Classical.choice, Quot.sound
* `Pylogit.float_nested_overflow`: propext, Classical.choice, Quot.sound
* `Pylogit.float_nested_positive`: propext, Classical.choice, Quot.sound
* `Pylogit.float_nested_power_overflow`: propext, Classical.choice, Quot.sound
* `Pylogit.float_overflow_nan`: propext, Classical.choice, Quot.sound
* `Pylogit.float_panel_forgets`: propext, Classical.choice, Quot.sound
* `Pylogit.float_panel_gradient`: propext, Classical.choice, Quot.sound
* `Pylogit.float_prob_given_nest`: propext, Classical.choice, Quot.sound
* `Pylogit.float_probs_accurate`: propext, Classical.choice, Quot.sound
* `Pylogit.float_probs_inaccurate`: propext, Classical.choice, Quot.sound
* `Pylogit.float_probs_nan_iff`: propext, Classical.choice, Quot.sound
* `Pylogit.float_probs_order`: propext, Classical.choice, Quot.sound
* `Pylogit.float_probs_others`: propext, Classical.choice, Quot.sound
* `Pylogit.float_probs_overflow`: propext, Classical.choice, Quot.sound
* `Pylogit.float_probs_sum`: propext, Classical.choice, Quot.sound
* `Pylogit.float_probs_valid`: propext, Classical.choice, Quot.sound
* `Pylogit.float_same_sign_valid`: propext, Classical.choice, Quot.sound
* `Pylogit.float_scobit_finite`: propext, Classical.choice, Quot.sound
* `Pylogit.float_scobit_jump`: propext, Classical.choice, Quot.sound
* `Pylogit.float_scobit_not_monotone`: propext, Classical.choice, Quot.sound
* `Pylogit.float_scobit_saturates`: propext, Classical.choice, Quot.sound
* `Pylogit.float_sequence_order_reversed`: propext, Classical.choice, Quot.sound
* `Pylogit.float_sequence_valid`: propext, Classical.choice, Quot.sound
* `Pylogit.float_shape_valid`: propext, Classical.choice, Quot.sound
* `Pylogit.float_uneven_nan_iff`: propext, Classical.choice, Quot.sound
* `Pylogit.float_utility`: propext, Classical.choice, Quot.sound
* `Pylogit.fresh_fit_reads_the_table`: propext, Classical.choice, Quot.sound
* `Pylogit.gradient_both`: propext, Classical.choice, Quot.sound
* `Pylogit.gradient_icpt`: propext, Classical.choice, Quot.sound
* `Pylogit.gradient_method_keeps_constrained`: propext, Classical.choice, Quot.sound
* `Pylogit.gradient_none`: propext, Classical.choice, Quot.sound
* `Pylogit.gradient_norm_constrained_nonzero`: propext, Classical.choice, Quot.sound
* `Pylogit.gradient_norm_ignores_constraints`: propext, Classical.choice, Quot.sound
* `Pylogit.gradient_norm_of_logit_fit`: propext, Classical.choice, Quot.sound
* `Pylogit.gradient_norm_of_mixed_fit`: propext, Classical.choice, Quot.sound
* `Pylogit.gradient_norm_of_nested_fit`: propext, Classical.choice, Quot.sound
* `Pylogit.gradient_norm_refusals`: propext, Classical.choice, Quot.sound
* `Pylogit.gradient_norm_zero_iff`: propext, Classical.choice, Quot.sound
* `Pylogit.gradient_norms`: propext, Classical.choice, Quot.sound
* `Pylogit.gradient_norms_need`: propext, Classical.choice, Quot.sound
* `Pylogit.gradient_norms_of_table`: propext, Classical.choice, Quot.sound
* `Pylogit.gradient_partials`: propext, Classical.choice, Quot.sound
* `Pylogit.gradient_shape`: propext, Classical.choice, Quot.sound
* `Pylogit.hessian_asymmetric_for_row_weights`: propext, Classical.choice, Quot.sound
* `Pylogit.hessian_covariance_both`: propext, Classical.choice, Quot.sound
* `Pylogit.hessian_covariance_icpt`: propext, Classical.choice, Quot.sound
* `Pylogit.hessian_covariance_none`: propext, Classical.choice, Quot.sound
* `Pylogit.hessian_covariance_shape`: propext, Classical.choice, Quot.sound
* `Pylogit.hessian_missing_entry_shape`: propext, Classical.choice, Quot.sound
* `Pylogit.hessian_missing_term_both`: propext, Classical.choice, Quot.sound
* `Pylogit.hessian_missing_term_icpt`: propext, Classical.choice, Quot.sound
* `Pylogit.hessian_missing_term_shape`: propext, Classical.choice, Quot.sound
* `Pylogit.hessian_ridge_bound`: propext, Classical.choice, Quot.sound
* `Pylogit.hessian_symm_nsd`: propext, Classical.choice, Quot.sound
* `Pylogit.index_names`: propext, Classical.choice, Quot.sound
* `Pylogit.intercept_maximum_shares`: propext, Classical.choice, Quot.sound
* `Pylogit.intercepts_fit_better`: propext, Classical.choice, Quot.sound
* `Pylogit.interval_refuses_bad_percentage`: propext, Classical.choice, Quot.sound
* `Pylogit.intervals_units`: propext, Classical.choice, Quot.sound
* `Pylogit.jackknife_changes_kwargs`: propext, Classical.choice, Quot.sound
* `Pylogit.jackknife_frames`: propext, Classical.choice, Quot.sound
* `Pylogit.jackknife_lone_chooser`: propext, Classical.choice, Quot.sound
* `Pylogit.jackknife_replicates`: propext, Classical.choice, Quot.sound
* `Pylogit.jackknife_replicates_maximise`: propext, Classical.choice, Quot.sound
* `Pylogit.jackknife_separated`: propext, Classical.choice, Quot.sound
* `Pylogit.jackknife_units`: propext, Classical.choice, Quot.sound
* `Pylogit.kept_rows_gain`: propext, Classical.choice, Quot.sound
* `Pylogit.larger_span_fits_better`: propext, Classical.choice, Quot.sound
* `Pylogit.library_changes_nothing_unasked`: propext, Classical.choice, Quot.sound
* `Pylogit.library_keeps_files`: propext, Classical.choice, Quot.sound
* `Pylogit.library_keeps_tables`: propext, Classical.choice, Quot.sound
* `Pylogit.listing_order_columns`: propext, Classical.choice, Quot.sound
* `Pylogit.logLik_ignores_left_out_alternative`: propext, Classical.choice, Quot.sound
* `Pylogit.logLik_ignores_reference_alternative`: propext, Classical.choice, Quot.sound
* `Pylogit.logit_estimate_exists_iff`: propext, Classical.choice, Quot.sound
* `Pylogit.logit_estimate_unique`: propext, Classical.choice, Quot.sound
* `Pylogit.logit_fit_accepts`: propext, Classical.choice, Quot.sound
* `Pylogit.logit_fit_report`: propext, Classical.choice, Quot.sound
* `Pylogit.logit_fit_sets_ridge`: propext, Classical.choice, Quot.sound
* `Pylogit.logit_fit_stores`: propext, Classical.choice, Quot.sound
* `Pylogit.loglik_formula`: propext, Classical.choice, Quot.sound
* `Pylogit.loglik_mnl_zero`: propext, Classical.choice, Quot.sound
* `Pylogit.loglik_nonpos`: propext, Classical.choice, Quot.sound
* `Pylogit.long_form_weights`: propext, Classical.choice, Quot.sound
* `Pylogit.long_to_wide_names`: propext, Classical.choice, Quot.sound
* `Pylogit.long_to_wide_partial`: propext, Classical.choice, Quot.sound
* `Pylogit.long_to_wide_silent_iff_partial`: propext, Classical.choice, Quot.sound
* `Pylogit.long_to_wide_silent_loss`: propext, Classical.choice, Quot.sound
* `Pylogit.long_to_wide_swaps_choices`: propext, Classical.choice, Quot.sound
* `Pylogit.long_to_wide_unused_iff`: propext, Classical.choice, Quot.sound
* `Pylogit.long_wide_long`: propext, Classical.choice, Quot.sound
* `Pylogit.maskHessian_apply`: propext, Classical.choice, Quot.sound
* `Pylogit.mixed_bhhh`: propext, Classical.choice, Quot.sound
* `Pylogit.mixed_bhhh_nsd`: propext, Classical.choice, Quot.sound
* `Pylogit.mixed_bhhh_ridge`: propext, Classical.choice, Quot.sound
* `Pylogit.mixed_bhhh_ridge_not_nsd`: propext, Classical.choice, Quot.sound
* `Pylogit.mixed_clipping_error`: propext, Classical.choice, Quot.sound
* `Pylogit.mixed_fit_accepts`: propext, Classical.choice, Quot.sound
* `Pylogit.mixed_fit_deals_draws`: propext, Classical.choice, Quot.sound
* `Pylogit.mixed_fit_depends_on_order`: propext, Classical.choice, Quot.sound
* `Pylogit.mixed_fit_ignores_alternative_numbers`: propext, Classical.choice, Quot.sound
* `Pylogit.mixed_fit_ignores_listing_order`: propext, Classical.choice, Quot.sound
* `Pylogit.mixed_fit_ignores_row_order`: propext, Classical.choice, Quot.sound
* `Pylogit.mixed_fit_ignores_row_order_partial`: propext, Classical.choice, Quot.sound
* `Pylogit.mixed_fit_maximises_table_logLik`: propext, Classical.choice, Quot.sound
* `Pylogit.mixed_fit_maximises_wide_logLik_any_order_partial`: propext, Classical.choice, Quot.sound
* `Pylogit.mixed_fit_maximises_wide_logLik_partial`: propext, Classical.choice, Quot.sound
* `Pylogit.mixed_fit_needs`: propext, Classical.choice, Quot.sound
* `Pylogit.mixed_fit_report_partial`: propext, Classical.choice, Quot.sound
* `Pylogit.mixed_fit_seeded`: propext, Classical.choice, Quot.sound
* `Pylogit.mixed_fit_sets_ridge`: propext, Classical.choice, Quot.sound
* `Pylogit.mixed_fit_stores`: propext, Classical.choice, Quot.sound
* `Pylogit.mixed_gradient`: propext, Classical.choice, Quot.sound
* `Pylogit.mixed_hessian_method_keeps_constrained`: propext, Classical.choice, Quot.sound
* `Pylogit.mixed_loglik_formula`: propext, Classical.choice, Quot.sound
* `Pylogit.mixed_loglik_nonpos`: propext, Classical.choice, Quot.sound
* `Pylogit.mixed_loglik_simulation`: propext, Classical.choice, Quot.sound
* `Pylogit.mixed_neg_gradient`: propext, Classical.choice, Quot.sound
* `Pylogit.mixed_newton_keeps_constrained`: propext, Classical.choice, Quot.sound
* `Pylogit.mixed_null`: propext, Classical.choice, Quot.sound
* `Pylogit.mixed_objective`: propext, Classical.choice, Quot.sound
* `Pylogit.mixed_predict_both_fails`: propext, Classical.choice, Quot.sound
* `Pylogit.mixed_predict_chosen`: propext, Classical.choice, Quot.sound
* `Pylogit.mixed_predict_depends_on_others`: propext, Classical.choice, Quot.sound
* `Pylogit.mixed_predict_iff`: propext, Classical.choice, Quot.sound
* `Pylogit.mixed_predict_local_partial`: propext, Classical.choice, Quot.sound
* `Pylogit.mixed_predict_long`: propext, Classical.choice, Quot.sound
* `Pylogit.mixed_predict_reproduces_fit`: propext, Classical.choice, Quot.sound
* `Pylogit.mixed_predict_rng`: propext, Classical.choice, Quot.sound
* `Pylogit.mixed_predict_seeded`: propext, Classical.choice, Quot.sound
* `Pylogit.mixed_predict_simulation`: propext, Classical.choice, Quot.sound
* `Pylogit.mixed_predict_unfitted`: propext, Classical.choice, Quot.sound
* `Pylogit.mixed_recoded`: propext, Classical.choice, Quot.sound
* `Pylogit.mixed_replicates_fail`: propext, Classical.choice, Quot.sound
* `Pylogit.mixed_ridge_attained`: propext, Classical.choice, Quot.sound
* `Pylogit.mixed_ridge_nan`: propext, Classical.choice, Quot.sound
* `Pylogit.mixed_robust_nan`: propext, Classical.choice, Quot.sound
* `Pylogit.mixed_scores_sum`: propext, Classical.choice, Quot.sound
* `Pylogit.mixed_units`: propext, Classical.choice, Quot.sound
* `Pylogit.mixed_zero_sd_loglik`: propext, Classical.choice, Quot.sound
* `Pylogit.mixed_zero_sd_probs`: propext, Classical.choice, Quot.sound
* `Pylogit.mixing_fits_better`: propext, Classical.choice, Quot.sound
* `Pylogit.mixing_positions`: propext, Classical.choice, Quot.sound
* `Pylogit.mnl_attained`: propext, Classical.choice, Quot.sound
* `Pylogit.mnl_below_tangent`: propext, Classical.choice, Quot.sound
* `Pylogit.mnl_bootstrap_succeeds`: propext, Classical.choice, Quot.sound
* `Pylogit.mnl_derivs_correct`: propext, Classical.choice, Quot.sound
* `Pylogit.mnl_derivs_same`: propext, Classical.choice, Quot.sound
* `Pylogit.mnl_estimates_agree`: propext, Classical.choice, Quot.sound
* `Pylogit.mnl_fisher_info`: propext, Classical.choice, Quot.sound
* `Pylogit.mnl_fit_accepts`: propext, Classical.choice, Quot.sound
* `Pylogit.mnl_fit_ignores_row_order`: propext, Classical.choice, Quot.sound
* `Pylogit.mnl_fit_never_chosen`: propext, Classical.choice, Quot.sound
* `Pylogit.mnl_fit_report`: propext, Classical.choice, Quot.sound
* `Pylogit.mnl_fit_reports`: propext, Classical.choice, Quot.sound
* `Pylogit.mnl_fit_rho_range`: propext, Classical.choice, Quot.sound
* `Pylogit.mnl_fit_separated`: propext, Classical.choice, Quot.sound
* `Pylogit.mnl_fit_sets_ridge`: propext, Classical.choice, Quot.sound
* `Pylogit.mnl_fit_stores`: propext, Classical.choice, Quot.sound
* `Pylogit.mnl_fit_stores_iff`: propext, Classical.choice, Quot.sound
* `Pylogit.mnl_fit_succeeds_iff`: propext, Classical.choice, Quot.sound
* `Pylogit.mnl_fits_agree`: propext, Classical.choice, Quot.sound
* `Pylogit.mnl_fits_agree_reordered`: propext, Classical.choice, Quot.sound
* `Pylogit.mnl_global_fits_agree`: propext, Classical.choice, Quot.sound
* `Pylogit.mnl_gradient`: propext, Classical.choice, Quot.sound
* `Pylogit.mnl_gradient_norm_zero_iff_maximum_partial`: propext, Classical.choice, Quot.sound
* `Pylogit.mnl_hessian`: propext, Classical.choice, Quot.sound
* `Pylogit.mnl_hessian_second_derivative`: propext, Classical.choice, Quot.sound
* `Pylogit.mnl_identified_iff`: propext, Classical.choice, Quot.sound
* `Pylogit.mnl_increasing`: propext, Classical.choice, Quot.sound
* `Pylogit.mnl_jackknife_succeeds`: propext, Classical.choice, Quot.sound
* `Pylogit.mnl_maximum_totals`: propext, Classical.choice, Quot.sound
* `Pylogit.mnl_newton_moves_constrained`: propext, Classical.choice, Quot.sound
* `Pylogit.mnl_no_memory`: propext, Classical.choice, Quot.sound
* `Pylogit.mnl_null`: propext, Classical.choice, Quot.sound
* `Pylogit.mnl_objective`: propext, Classical.choice, Quot.sound
* `Pylogit.mnl_objective_hessian`: propext, Classical.choice, Quot.sound
* `Pylogit.mnl_own`: propext, Classical.choice, Quot.sound
* `Pylogit.mnl_probabilities_formula`: propext, Classical.choice, Quot.sound
* `Pylogit.mnl_probabilities_own_choice_set`: propext, Classical.choice, Quot.sound
* `Pylogit.mnl_recoded`: propext, Classical.choice, Quot.sound
* `Pylogit.mnl_replicates_ignore_options`: propext, Classical.choice, Quot.sound
* `Pylogit.mnl_ridge_attained`: propext, Classical.choice, Quot.sound
* `Pylogit.mnl_ridge_one_estimate`: propext, Classical.choice, Quot.sound
* `Pylogit.mnl_ridge_unique_maximum`: propext, Classical.choice, Quot.sound
* `Pylogit.mnl_same`: propext, Classical.choice, Quot.sound
* `Pylogit.mnl_shares`: propext, Classical.choice, Quot.sound
* `Pylogit.mnl_stationary_is_maximum`: propext, Classical.choice, Quot.sound
* `Pylogit.mnl_totals`: propext, Classical.choice, Quot.sound
* `Pylogit.mnl_units`: propext, Classical.choice, Quot.sound
* `Pylogit.mnl_units_results`: propext, Classical.choice, Quot.sound
* `Pylogit.mnl_units_ridge`: propext, Classical.choice, Quot.sound
* `Pylogit.model_mixing_positions`: propext, Classical.choice, Quot.sound
* `Pylogit.model_mnl_exact`: propext, Classical.choice, Quot.sound
* `Pylogit.model_probs_of_kept_rows`: propext, Classical.choice, Quot.sound
* `Pylogit.models_do_not_interfere`: propext, Classical.choice, Quot.sound
* `Pylogit.more_variables_fit_better`: propext, Classical.choice, Quot.sound
* `Pylogit.names_and_reference`: propext, Classical.choice, Quot.sound
* `Pylogit.natural_shapes_are_probabilities`: propext, Classical.choice, Quot.sound
* `Pylogit.natural_shapes_injective`: propext, Classical.choice, Quot.sound
* `Pylogit.natural_shapes_jacobian`: propext, Classical.choice, Quot.sound
* `Pylogit.natural_shapes_log_ratio`: propext, Classical.choice, Quot.sound
* `Pylogit.natural_shapes_surjective`: propext, Classical.choice, Quot.sound
* `Pylogit.naturalize_spec`: propext, Classical.choice, Quot.sound
* `Pylogit.negative_ridge_no_maximum`: propext, Classical.choice, Quot.sound
* `Pylogit.nestedSampleLogLik_all`: propext, Classical.choice, Quot.sound
* `Pylogit.nested_bhhh_nsd`: propext, Classical.choice, Quot.sound
* `Pylogit.nested_bhhh_partial`: propext, Classical.choice, Quot.sound
* `Pylogit.nested_bhhh_wrong`: propext, Classical.choice, Quot.sound
* `Pylogit.nested_bootstrap_maximises_partial`: propext, Classical.choice, Quot.sound
* `Pylogit.nested_bootstrap_succeeds`: propext, Classical.choice, Quot.sound
* `Pylogit.nested_chosen_probability`: propext, Classical.choice, Quot.sound
* `Pylogit.nested_excess_none`: propext, Classical.choice, Quot.sound
* `Pylogit.nested_factorisation`: propext, Classical.choice, Quot.sound
* `Pylogit.nested_fit_accepts`: propext, Classical.choice, Quot.sound
* `Pylogit.nested_fit_defined`: propext, Classical.choice, Quot.sound
* `Pylogit.nested_fit_ignores_alternative_numbers`: propext, Classical.choice, Quot.sound
* `Pylogit.nested_fit_ignores_listing_order`: propext, Classical.choice, Quot.sound
* `Pylogit.nested_fit_ignores_row_order`: propext, Classical.choice, Quot.sound
* `Pylogit.nested_fit_maximises_table_logLik`: propext, Classical.choice, Quot.sound
* `Pylogit.nested_fit_maximises_wide_logLik_any_order_partial`: propext, Classical.choice, Quot.sound
* `Pylogit.nested_fit_maximises_wide_logLik_partial`: propext, Classical.choice, Quot.sound
* `Pylogit.nested_fit_null_not_equal_shares`: propext, Classical.choice, Quot.sound
* `Pylogit.nested_fit_report_partial`: propext, Classical.choice, Quot.sound
* `Pylogit.nested_fit_sets_ridge`: propext, Classical.choice, Quot.sound
* `Pylogit.nested_fit_stores`: propext, Classical.choice, Quot.sound
* `Pylogit.nested_gradient_correct_iff`: propext, Classical.choice, Quot.sound
* `Pylogit.nested_gradient_exact`: propext, Classical.choice, Quot.sound
* `Pylogit.nested_gradient_partial`: propext, Classical.choice, Quot.sound
* `Pylogit.nested_gradient_wrong_example`: propext, Classical.choice, Quot.sound
* `Pylogit.nested_hessian_method_keeps_constrained`: propext, Classical.choice, Quot.sound
* `Pylogit.nested_jackknife_maximises_partial`: propext, Classical.choice, Quot.sound
* `Pylogit.nested_jackknife_succeeds`: propext, Classical.choice, Quot.sound
* `Pylogit.nested_kept_rows_gain`: propext, Classical.choice, Quot.sound
* `Pylogit.nested_newton_keeps_constrained`: propext, Classical.choice, Quot.sound
* `Pylogit.nested_null_not_equal_shares`: propext, Classical.choice, Quot.sound
* `Pylogit.nested_null_partial`: propext, Classical.choice, Quot.sound
* `Pylogit.nested_objective_iff`: propext, Classical.choice, Quot.sound
* `Pylogit.nested_objective_partial`: propext, Classical.choice, Quot.sound
* `Pylogit.nested_objective_ridge_partial`: propext, Classical.choice, Quot.sound
* `Pylogit.nested_probabilities_formula`: propext, Classical.choice, Quot.sound
* `Pylogit.nested_probabilities_valid`: propext, Classical.choice, Quot.sound
* `Pylogit.nested_ratio`: propext, Classical.choice, Quot.sound
* `Pylogit.nested_ratio_across_nests`: propext, Classical.choice, Quot.sound
* `Pylogit.nested_recoded`: propext, Classical.choice, Quot.sound
* `Pylogit.nested_ridge_derivative`: propext, Classical.choice, Quot.sound
* `Pylogit.nested_ridge_gradient_partial`: propext, Classical.choice, Quot.sound
* `Pylogit.nested_ridge_gradient_wrong`: propext, Classical.choice, Quot.sound
* `Pylogit.nested_ridge_not_attained`: propext, Classical.choice, Quot.sound
* `Pylogit.nested_robust_nan`: propext, Classical.choice, Quot.sound
* `Pylogit.nested_score_exact`: propext, Classical.choice, Quot.sound
* `Pylogit.nested_scores_sum`: propext, Classical.choice, Quot.sound
* `Pylogit.nested_unit_coefs`: propext, Classical.choice, Quot.sound
* `Pylogit.nested_unit_coefs_mnl`: propext, Classical.choice, Quot.sound
* `Pylogit.nested_units`: propext, Classical.choice, Quot.sound
* `Pylogit.nests_fit_better`: propext, Classical.choice, Quot.sound
* `Pylogit.never_chosen_separates`: propext, Classical.choice, Quot.sound
* `Pylogit.no_alternative_left_out_refused`: propext, Classical.choice, Quot.sound
* `Pylogit.normal_draws_errors`: propext, Classical.choice, Quot.sound
* `Pylogit.normal_draws_iff`: propext, Classical.choice, Quot.sound
* `Pylogit.normal_draws_model`: propext, Classical.choice, Quot.sound
* `Pylogit.normal_draws_prefix`: propext, Classical.choice, Quot.sound
* `Pylogit.normal_draws_seeded`: propext, Classical.choice, Quot.sound
* `Pylogit.one_choice_accepted_partial`: propext, Classical.choice, Quot.sound
* `Pylogit.one_name_per_column`: propext, Classical.choice, Quot.sound
* `Pylogit.other_bootstrap_succeeds`: propext, Classical.choice, Quot.sound
* `Pylogit.other_jackknife_succeeds`: propext, Classical.choice, Quot.sound
* `Pylogit.other_replicates_bind`: propext, Classical.choice, Quot.sound
* `Pylogit.panel_predict_contract`: propext, Classical.choice, Quot.sound
* `Pylogit.panel_predict_exact`: propext, Classical.choice, Quot.sound
* `Pylogit.panel_predict_partial`: propext, Classical.choice, Quot.sound
* `Pylogit.panel_predict_sums`: propext, Classical.choice, Quot.sound
* `Pylogit.panel_predict_wrong_order`: propext, Classical.choice, Quot.sound
* `Pylogit.param_list_accepted_iff`: propext, Classical.choice, Quot.sound
* `Pylogit.param_list_check`: propext, Classical.choice, Quot.sound
* `Pylogit.param_list_for_prediction`: propext
* `Pylogit.param_list_lossless`: propext, Quot.sound
* `Pylogit.param_list_matches_split`: propext, Classical.choice, Quot.sound
* `Pylogit.paths_leave_tables`: propext, Classical.choice, Quot.sound
* `Pylogit.penalised_fit_accepts`: propext, Classical.choice, Quot.sound
* `Pylogit.penalised_mixed_fit_accepts`: propext, Classical.choice, Quot.sound
* `Pylogit.percentile_interval`: propext, Classical.choice, Quot.sound
* `Pylogit.percentile_interval_decreasing`: propext, Classical.choice, Quot.sound
* `Pylogit.percentile_interval_empty`: propext, Classical.choice, Quot.sound
* `Pylogit.percentile_interval_increasing`: propext, Classical.choice, Quot.sound
* `Pylogit.percentile_interval_neg`: propext, Classical.choice, Quot.sound
* `Pylogit.percentile_interval_nested`: propext, Classical.choice, Quot.sound
* `Pylogit.perm_gradient`: propext, Classical.choice, Quot.sound
* `Pylogit.perm_hessian`: propext, Classical.choice, Quot.sound
* `Pylogit.perm_loglik`: propext, Classical.choice, Quot.sound
* `Pylogit.perm_probs`: propext, Classical.choice, Quot.sound
* `Pylogit.point_est_same_model`: propext, Classical.choice, Quot.sound
* `Pylogit.point_est_start_mnl`: propext, Classical.choice, Quot.sound
* `Pylogit.point_est_start_other`: propext, Classical.choice, Quot.sound
* `Pylogit.predict_depends_on_others`: propext, Classical.choice, Quot.sound
* `Pylogit.predict_from_data`: propext, Classical.choice, Quot.sound
* `Pylogit.predict_intercept_column`: propext, Classical.choice, Quot.sound
* `Pylogit.predict_local_partial`: propext, Classical.choice, Quot.sound
* `Pylogit.predict_misapplied`: propext, Classical.choice, Quot.sound
* `Pylogit.predict_missing_id`: propext, Classical.choice, Quot.sound
* `Pylogit.predict_neither`: propext, Classical.choice, Quot.sound
* `Pylogit.predict_nested`: propext, Classical.choice, Quot.sound
* `Pylogit.predict_nested_chosen`: propext, Classical.choice, Quot.sound
* `Pylogit.predict_nested_local`: propext, Classical.choice, Quot.sound
* `Pylogit.predict_nested_omits_chosen`: propext, Classical.choice, Quot.sound
* `Pylogit.predict_nested_succeeds`: propext, Classical.choice, Quot.sound
* `Pylogit.predict_param_list_sizes`: propext, Classical.choice, Quot.sound
* `Pylogit.predict_parts_partial`: propext, Classical.choice, Quot.sound
* `Pylogit.predict_positional`: propext, Classical.choice, Quot.sound
* `Pylogit.predict_reproduces_fit`: propext, Classical.choice, Quot.sound
* `Pylogit.predict_reproduces_nested_fit`: propext, Classical.choice, Quot.sound
* `Pylogit.predict_reproduces_singular_fit`: propext, Classical.choice, Quot.sound
* `Pylogit.predict_right_alternatives_partial`: propext, Classical.choice, Quot.sound
* `Pylogit.predict_single_intercept`: propext, Classical.choice, Quot.sound
* `Pylogit.predict_succeeds`: propext, Classical.choice, Quot.sound
* `Pylogit.predict_unnamed_intercepts`: propext, Classical.choice, Quot.sound
* `Pylogit.predict_wrong_columns`: propext, Classical.choice, Quot.sound
* `Pylogit.predict_wrong_count_intercepts`: propext, Classical.choice, Quot.sound
* `Pylogit.predict_wrong_count_shapes`: propext, Classical.choice, Quot.sound
* `Pylogit.predictions_ignore_alternative_numbers`: propext, Classical.choice, Quot.sound
* `Pylogit.predictions_ignore_left_out_alternative`: propext, Classical.choice, Quot.sound
* `Pylogit.predictions_ignore_listing_order`: propext, Classical.choice, Quot.sound
* `Pylogit.predictions_ignore_reference_alternative`: propext, Classical.choice, Quot.sound
* `Pylogit.print_summaries_latest`: propext, Classical.choice, Quot.sound
* `Pylogit.print_summaries_unfitted`: propext, Classical.choice, Quot.sound
* `Pylogit.probabilities_clipped_equal`: propext, Classical.choice, Quot.sound
* `Pylogit.probabilities_formula`: propext, Classical.choice, Quot.sound
* `Pylogit.probabilities_monotone`: propext, Classical.choice, Quot.sound
* `Pylogit.probabilities_own_choice_set`: propext, Classical.choice, Quot.sound
* `Pylogit.probabilities_shift`: propext, Classical.choice, Quot.sound
* `Pylogit.probabilities_shift_fails_when_clipped`: propext, Classical.choice, Quot.sound
* `Pylogit.probabilities_strictMono`: propext, Classical.choice, Quot.sound
* `Pylogit.probabilities_valid`: propext, Classical.choice, Quot.sound
* `Pylogit.probabilities_valid_of_ids`: propext, Classical.choice, Quot.sound
* `Pylogit.probability_increases`: propext, Classical.choice, Quot.sound
* `Pylogit.probs_of_kept_rows`: propext, Classical.choice, Quot.sound
* `Pylogit.raised_utility`: propext, Classical.choice, Quot.sound
* `Pylogit.ratios_of_kept_rows`: propext, Classical.choice, Quot.sound
* `Pylogit.recreate_same`: propext, Classical.choice, Quot.sound
* `Pylogit.recreate_settings`: propext, Classical.choice, Quot.sound
* `Pylogit.reexpressed_best`: propext, Classical.choice, Quot.sound
* `Pylogit.reference_alternative_matters_with_ridge`: propext, Classical.choice, Quot.sound
* `Pylogit.reference_share`: propext, Classical.choice, Quot.sound
* `Pylogit.replicate_likes_extra_ignored`: propext, Classical.choice, Quot.sound
* `Pylogit.replicate_likes_mixed_panel`: propext, Classical.choice, Quot.sound
* `Pylogit.replicate_likes_mixed_partial`: propext, Classical.choice, Quot.sound
* `Pylogit.replicate_likes_nested`: propext, Classical.choice, Quot.sound
* `Pylogit.replicate_likes_one_asym_refused`: propext, Classical.choice, Quot.sound
* `Pylogit.replicate_likes_one_asym_two`: propext, Classical.choice, Quot.sound
* `Pylogit.replicate_likes_one_intercept_refused`: propext, Classical.choice, Quot.sound
* `Pylogit.replicate_likes_one_intercepts_refused`: propext, Classical.choice, Quot.sound
* `Pylogit.replicate_likes_one_scobit_two`: propext, Classical.choice, Quot.sound
* `Pylogit.replicate_likes_partial`: propext, Classical.choice, Quot.sound
* `Pylogit.replicate_likes_scobit_one`: propext, Classical.choice, Quot.sound
* `Pylogit.replicate_likes_scobit_refused`: propext, Classical.choice, Quot.sound
* `Pylogit.replicate_likes_shape_count`: propext, Classical.choice, Quot.sound
* `Pylogit.replicate_likes_too_narrow`: propext, Classical.choice, Quot.sound
* `Pylogit.replicate_needs_mnl_kwargs`: propext, Classical.choice, Quot.sound
* `Pylogit.replicates_again`: propext, Classical.choice, Quot.sound
* `Pylogit.replicates_leave_none_partial`: propext, Classical.choice, Quot.sound
* `Pylogit.reused_kwargs_store_nothing`: propext, Classical.choice, Quot.sound
* `Pylogit.rho_bar_le`: propext, Classical.choice, Quot.sound
* `Pylogit.rho_squared_range`: propext, Classical.choice, Quot.sound
* `Pylogit.ridge_centres_coefficients`: propext, Classical.choice, Quot.sound
* `Pylogit.ridge_drops_constant_variable`: propext, Classical.choice, Quot.sound
* `Pylogit.ridge_param_last`: propext, Classical.choice, Quot.sound
* `Pylogit.ridge_param_not_of_results`: propext, Classical.choice, Quot.sound
* `Pylogit.ridge_param_of_failed`: propext, Classical.choice, Quot.sound
* `Pylogit.robust_covariance`: propext, Classical.choice, Quot.sound
* `Pylogit.roundedLib_accurate`: propext, Classical.choice, Quot.sound
* `Pylogit.roundedLib_expRange`: propext, Classical.choice, Quot.sound
* `Pylogit.roundedLib_powAccurate`: propext, Classical.choice, Quot.sound
* `Pylogit.rowToSomeIdColMapping_eq`: propext, Classical.choice, Quot.sound
* `Pylogit.rowsToAlts_oneHot`: propext, Classical.choice, Quot.sound
* `Pylogit.rowsToNests_entry`: propext, Classical.choice, Quot.sound
* `Pylogit.rowsToNests_keyError`: propext, Quot.sound
* `Pylogit.rowsToObs_oneHot`: propext, Classical.choice, Quot.sound
* `Pylogit.run_bootstrap`: propext, Classical.choice, Quot.sound
* `Pylogit.run_jackknife`: propext, Classical.choice, Quot.sound
* `Pylogit.same_replicates_interval`: propext, Classical.choice, Quot.sound
* `Pylogit.sampleLogLik_all`: propext, Classical.choice, Quot.sound
* `Pylogit.save_elsewhere`: propext, Classical.choice, Quot.sound
* `Pylogit.save_interrupted_partial`: propext, Classical.choice, Quot.sound
* `Pylogit.save_load`: propext, Classical.choice, Quot.sound
* `Pylogit.save_name`: propext, Classical.choice, Quot.sound
* `Pylogit.save_not_atomic`: propext, Classical.choice, Quot.sound
* `Pylogit.save_same_file_iff`: propext, Classical.choice, Quot.sound
* `Pylogit.save_snapshot`: propext, Classical.choice, Quot.sound
* `Pylogit.scobit_curvature`: propext, Classical.choice, Quot.sound
* `Pylogit.scobit_curvature_plain`: propext, Classical.choice, Quot.sound
* `Pylogit.scobit_derivs_correct`: propext, Classical.choice, Quot.sound
* `Pylogit.scobit_derivs_same`: propext, Classical.choice, Quot.sound
* `Pylogit.scobit_fisher_info`: propext, Classical.choice, Quot.sound
* `Pylogit.scobit_gradient`: propext, Classical.choice, Quot.sound
* `Pylogit.scobit_gradient_no_intercepts`: propext, Classical.choice, Quot.sound
* `Pylogit.scobit_hessian_covariance`: propext, Classical.choice, Quot.sound
* `Pylogit.scobit_hessian_not_second_derivative`: propext, Classical.choice, Quot.sound
* `Pylogit.scobit_increasing`: propext, Classical.choice, Quot.sound
* `Pylogit.scobit_no_memory`: propext, Classical.choice, Quot.sound
* `Pylogit.scobit_null`: propext, Classical.choice, Quot.sound
* `Pylogit.scobit_null_plain`: propext, Classical.choice, Quot.sound
* `Pylogit.scobit_objective`: propext, Classical.choice, Quot.sound
* `Pylogit.scobit_objective_plain`: propext, Classical.choice, Quot.sound
* `Pylogit.scobit_own`: propext, Classical.choice, Quot.sound
* `Pylogit.scobit_plain_no_memory`: propext, Classical.choice, Quot.sound
* `Pylogit.scobit_plain_ridge_attained`: propext, Classical.choice, Quot.sound
* `Pylogit.scobit_recoded`: propext, Classical.choice, Quot.sound
* `Pylogit.scobit_ridge_attained`: propext, Classical.choice, Quot.sound
* `Pylogit.scobit_same`: propext, Classical.choice, Quot.sound
* `Pylogit.scobit_shares`: propext, Classical.choice, Quot.sound
* `Pylogit.scobit_starts_at_mnl`: propext, Classical.choice, Quot.sound
* `Pylogit.scobit_units`: propext, Classical.choice, Quot.sound
* `Pylogit.scobit_zero_shape`: propext, Classical.choice, Quot.sound
* `Pylogit.separated_never_best`: propext, Classical.choice, Quot.sound
* `Pylogit.sequence_probability`: propext, Classical.choice, Quot.sound
* `Pylogit.sequence_probability_range`: propext, Classical.choice, Quot.sound
* `Pylogit.shapes_fit_better`: propext, Classical.choice, Quot.sound
* `Pylogit.shared_kwargs_replicates`: propext, Classical.choice, Quot.sound
* `Pylogit.shares_total`: propext, Classical.choice, Quot.sound
* `Pylogit.sigma_column_breaks_storage`: propext, Classical.choice, Quot.sound
* `Pylogit.singular_hessian_mixture`: propext, Classical.choice, Quot.sound
* `Pylogit.split_concat`: propext, Classical.choice, Quot.sound
* `Pylogit.split_zero_index`: none
* `Pylogit.stale_percentile`: propext, Classical.choice, Quot.sound
* `Pylogit.standard_errors`: propext, Classical.choice, Quot.sound
* `Pylogit.stationary_iff_estimate`: propext, Classical.choice, Quot.sound
* `Pylogit.stationary_unique`: propext, Classical.choice, Quot.sound
* `Pylogit.statsmodels_after_failed_store`: propext, Classical.choice, Quot.sound
* `Pylogit.statsmodels_fallback`: propext, Classical.choice, Quot.sound
* `Pylogit.statsmodels_latest_partial`: propext, Classical.choice, Quot.sound
* `Pylogit.statsmodels_mixture`: propext, Classical.choice, Quot.sound
* `Pylogit.statsmodels_unfitted`: propext, Classical.choice, Quot.sound
* `Pylogit.storeInference_total`: propext, Classical.choice, Quot.sound
* `Pylogit.store_fit_consistent`: propext, Classical.choice, Quot.sound
* `Pylogit.store_fit_iff`: propext, Classical.choice, Quot.sound
* `Pylogit.store_fit_no_stale`: propext, Classical.choice, Quot.sound
* `Pylogit.stored_abc`: propext, Classical.choice, Quot.sound
* `Pylogit.stored_all`: propext, Classical.choice, Quot.sound
* `Pylogit.stored_bca`: propext, Classical.choice, Quot.sound
* `Pylogit.stored_params`: propext, Classical.choice, Quot.sound
* `Pylogit.stored_percentile`: propext, Classical.choice, Quot.sound
* `Pylogit.stratified_variance_le`: propext, Classical.choice, Quot.sound
* `Pylogit.summaries_dichotomy`: propext, Classical.choice, Quot.sound
* `Pylogit.tape_standard`: propext, Classical.choice, Quot.sound
* `Pylogit.tape_uniform`: propext, Classical.choice, Quot.sound
* `Pylogit.transforms_add_intercepts`: propext, Classical.choice, Quot.sound
* `Pylogit.transforms_of_kept_rows`: propext, Classical.choice, Quot.sound
* `Pylogit.two_and_zero_choices_accepted`: propext, Classical.choice, Quot.sound
* `Pylogit.unconstrained_results`: propext, Classical.choice, Quot.sound
* `Pylogit.uneven_curvature`: propext, Classical.choice, Quot.sound
* `Pylogit.uneven_curvature_plain`: propext, Classical.choice, Quot.sound
* `Pylogit.uneven_derivs_correct`: propext, Classical.choice, Quot.sound
* `Pylogit.uneven_derivs_same`: propext, Classical.choice, Quot.sound
* `Pylogit.uneven_fisher_info_no_intercepts`: propext, Classical.choice, Quot.sound
* `Pylogit.uneven_gradient`: propext, Classical.choice, Quot.sound
* `Pylogit.uneven_gradient_no_intercepts`: propext, Classical.choice, Quot.sound
* `Pylogit.uneven_hessian_covariance_no_intercepts`: propext, Classical.choice, Quot.sound
* `Pylogit.uneven_hessian_not_second_derivative`: propext, Classical.choice, Quot.sound
* `Pylogit.uneven_increasing`: propext, Classical.choice, Quot.sound
* `Pylogit.uneven_no_memory`: propext, Classical.choice, Quot.sound
* `Pylogit.uneven_null`: propext, Classical.choice, Quot.sound
* `Pylogit.uneven_null_plain`: propext, Classical.choice, Quot.sound
* `Pylogit.uneven_objective`: propext, Classical.choice, Quot.sound
* `Pylogit.uneven_objective_plain`: propext, Classical.choice, Quot.sound
* `Pylogit.uneven_own`: propext, Classical.choice, Quot.sound
* `Pylogit.uneven_plain_no_memory`: propext, Classical.choice, Quot.sound
* `Pylogit.uneven_plain_ridge_attained`: propext, Classical.choice, Quot.sound
* `Pylogit.uneven_recoded`: propext, Classical.choice, Quot.sound
* `Pylogit.uneven_ridge_attained`: propext, Classical.choice, Quot.sound
* `Pylogit.uneven_same`: propext, Classical.choice, Quot.sound
* `Pylogit.uneven_shares`: propext, Classical.choice, Quot.sound
* `Pylogit.uneven_starts_at_mnl`: propext, Classical.choice, Quot.sound
* `Pylogit.uneven_units`: propext, Classical.choice, Quot.sound
* `Pylogit.uneven_zero_shape`: propext, Classical.choice, Quot.sound
* `Pylogit.unique_ids_eq_firstAppearance`: propext, Classical.choice, Quot.sound
* `Pylogit.unique_ids_first_appearance`: propext, Classical.choice, Quot.sound
* `Pylogit.units_inference`: propext, Classical.choice, Quot.sound
* `Pylogit.unnamed_reference_unchecked`: propext
* `Pylogit.user_names_mislabelled`: propext, Classical.choice, Quot.sound
* `Pylogit.user_names_same_order_partial`: propext, Classical.choice, Quot.sound
* `Pylogit.validateNestSpec_ok_iff`: propext, Classical.choice, Quot.sound
* `Pylogit.weighted_estimator_partial`: propext, Classical.choice, Quot.sound
* `Pylogit.wide_fit_loses_choice`: propext, Classical.choice, Quot.sound
* `Pylogit.wide_to_long_key_order`: propext
* `Pylogit.wide_to_long_key_order_silent`: propext
* `Pylogit.wide_to_long_one_choice_iff`: propext, Classical.choice, Quot.sound
* `Pylogit.wide_to_long_one_choice_partial`: propext, Classical.choice, Quot.sound
* `Pylogit.wide_to_long_pairs_partial`: propext, Classical.choice, Quot.sound
* `Pylogit.wide_to_long_right_iff`: propext, Classical.choice, Quot.sound
* `Pylogit.wide_to_long_rows_partial`: propext, Classical.choice, Quot.sound
* `Pylogit.wide_to_long_scaled_ids`: propext
* `Pylogit.wide_to_long_silent_iff_partial`: propext, Classical.choice, Quot.sound
* `Pylogit.wide_to_long_silent_wrong`: propext
* `Pylogit.wide_to_long_unused_iff`: propext, Classical.choice, Quot.sound
