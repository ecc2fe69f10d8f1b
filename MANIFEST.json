{
 "claims": [
  {
   "property": "C01",
   "status": "proved",
   "theorems": [
    "unique_ids_first_appearance",
    "unique_ids_eq_firstAppearance"
   ],
   "note": ""
  },
  {
   "property": "C02",
   "status": "proved",
   "theorems": [
    "rowsToObs_oneHot",
    "rowsToAlts_oneHot",
    "rowToSomeIdColMapping_eq",
    "OneHotPartition.indicates",
    "probabilities_valid_of_ids"
   ],
   "note": "OneHotPartition.indicates discharges the Indicates hypothesis of C16-C30 for the mappings the code builds."
  },
  {
   "property": "C03",
   "status": "proved",
   "theorems": [
    "chosenRowToObs_entry",
    "chosenRowToObs_single"
   ],
   "note": ""
  },
  {
   "property": "C04",
   "status": "proved",
   "theorems": [
    "rowsToNests_entry",
    "rowsToNests_keyError"
   ],
   "note": ""
  },
  {
   "property": "C05",
   "status": "proved",
   "theorems": [
    "design_entries",
    "design_success",
    "accepted_spec_typed"
   ],
   "note": ""
  },
  {
   "property": "C06",
   "status": "proved",
   "theorems": [
    "one_name_per_column",
    "default_names"
   ],
   "note": ""
  },
  {
   "property": "C07",
   "status": "partial",
   "theorems": [
    "user_names_same_order_partial",
    "user_names_mislabelled"
   ],
   "note": "False of the code when the names dictionary lists its keys in another order (witness proved); true when the orders agree."
  },
  {
   "property": "C08",
   "status": "proved",
   "theorems": [
    "checkSpecDict_ok_iff",
    "checkSpecDict_typeError_iff"
   ],
   "note": ""
  },
  {
   "property": "C09",
   "status": "proved",
   "theorems": [
    "validateNestSpec_ok_iff",
    "accepted_nests_map"
   ],
   "note": ""
  },
  {
   "property": "C10",
   "status": "partial",
   "theorems": [
    "contiguity_sound_partial",
    "contiguity_iff_nondecreasing",
    "contiguity_incomplete"
   ],
   "note": "Accepting implies contiguous rows; the converse is false of the code (contiguous but descending ids are rejected; witness proved). Exact characterisation proved instead: accepted iff ids are non-decreasing in steps as stated."
  },
  {
   "property": "C11",
   "status": "partial",
   "theorems": [
    "wide_to_long_rows_partial",
    "wide_to_long_pairs_partial",
    "wide_to_long_right_iff",
    "wide_to_long_key_order",
    "wide_to_long_scaled_ids"
   ],
   "note": "Proved for availability dictionaries listed in ascending order with 0/1 cells; refuted by witnesses for other key orders; wide_to_long_right_iff says exactly which orders give the documented table."
  },
  {
   "property": "C12",
   "status": "partial",
   "theorems": [
    "wide_to_long_one_choice_partial",
    "wide_to_long_one_choice_iff",
    "wide_to_long_key_order"
   ],
   "note": "Proved for ascending availability dictionaries with 0/1 cells; refuted by a witness for other key orders."
  },
  {
   "property": "C13",
   "status": "partial",
   "theorems": [
    "long_to_wide_partial",
    "long_to_wide_names",
    "chosen_ordered_of_contiguous",
    "long_to_wide_swaps_choices",
    "exLong_hyps"
   ],
   "note": "Proved when chosen rows follow the order of the observations (in particular for contiguous rows) ; refuted for interleaved rows: the code swaps the choices of two observations."
  },
  {
   "property": "C14",
   "status": "partial",
   "theorems": [
    "ensureNumChosen_iff_total",
    "one_choice_accepted_partial",
    "two_and_zero_choices_accepted"
   ],
   "note": "One choice per observation is accepted; the converse is false of the code (two choices in one observation and none in another are accepted; witness proved)."
  },
  {
   "property": "C15",
   "status": "proved",
   "theorems": [
    "long_wide_long",
    "exLong_roundtrip"
   ],
   "note": "Individual variables constant within observations, subset variables zero outside their subset and distinct wide labels are explicit hypotheses."
  },
  {
   "property": "C16",
   "status": "proved",
   "theorems": [
    "probabilities_valid"
   ],
   "note": "Every coefficient/design/transform; over the reals (no underflow)."
  },
  {
   "property": "C17",
   "status": "proved",
   "theorems": [
    "probabilities_formula",
    "mnl_probabilities_formula",
    "probabilities_own_choice_set",
    "mnl_probabilities_own_choice_set",
    "probabilities_shift"
   ],
   "note": ""
  },
  {
   "property": "C18",
   "status": "proved",
   "theorems": [
    "probabilities_clipped_equal",
    "probabilities_shift_fails_when_clipped",
    "probabilities_monotone",
    "probabilities_strictMono"
   ],
   "note": ""
  },
  {
   "property": "C19",
   "status": "proved",
   "theorems": [
    "chosen_probability_is_long_probability",
    "chosen_only_agrees"
   ],
   "note": ""
  },
  {
   "property": "C20",
   "status": "proved",
   "theorems": [
    "calcProbabilities_contract"
   ],
   "note": ""
  },
  {
   "property": "C21",
   "status": "proved",
   "theorems": [
    "perm_probs",
    "perm_loglik",
    "perm_gradient",
    "perm_hessian",
    "mnl_same",
    "scobit_same",
    "uneven_same",
    "clog_same",
    "asym_same",
    "mnl_derivs_same",
    "scobit_derivs_same",
    "uneven_derivs_same",
    "clog_derivs_same",
    "asym_derivs_same"
   ],
   "note": "Arbitrary row reordering and relabelling of observations; the *_same theorems discharge the hypothesis for every model."
  },
  {
   "property": "C22",
   "status": "proved",
   "theorems": [
    "loglik_formula",
    "loglik_nonpos",
    "loglik_mnl_zero"
   ],
   "note": ""
  },
  {
   "property": "C23",
   "status": "partial",
   "theorems": [
    "gradient_both",
    "gradient_shape",
    "gradient_icpt",
    "gradient_none",
    "mnl_gradient",
    "scobit_gradient",
    "scobit_gradient_no_intercepts",
    "uneven_gradient",
    "uneven_gradient_no_intercepts",
    "clog_gradient_partial",
    "clog_gradient_no_intercepts_partial",
    "asym_gradient_partial",
    "asym_gradient_no_intercepts_partial"
   ],
   "note": "Generic statement proved in full (weights constant within an observation). Per model: unconditional for MNL, Scobit, Uneven; Clog-log needs utilities below 3.7, Asymmetric non-zero utilities, because of C31."
  },
  {
   "property": "C24",
   "status": "proved",
   "theorems": [
    "mnl_hessian",
    "mnl_hessian_second_derivative"
   ],
   "note": ""
  },
  {
   "property": "C25",
   "status": "partial",
   "theorems": [
    "clog_hessian_missing_term",
    "clog_hessian_not_second_derivative",
    "uneven_hessian_not_second_derivative",
    "scobit_hessian_not_second_derivative",
    "asym_hessian_not_second_derivative",
    "hessian_missing_entry_shape",
    "gradient_partials",
    "hessian_covariance_both",
    "hessian_covariance_shape",
    "hessian_covariance_icpt",
    "hessian_covariance_none",
    "hessian_missing_term_both",
    "hessian_missing_term_shape",
    "hessian_missing_term_icpt",
    "scobit_hessian_covariance",
    "uneven_hessian_covariance_no_intercepts",
    "clog_hessian_missing_term_intercepts"
   ],
   "note": "False of the code: the exact missing term is proved, with a concrete data set where it is non-zero for each of the four models."
  },
  {
   "property": "C26",
   "status": "proved",
   "theorems": [
    "hessian_symm_nsd",
    "hessian_asymmetric_for_row_weights"
   ],
   "note": "Weights equal on the rows of an observation; the second theorem shows that this is needed."
  },
  {
   "property": "C27",
   "status": "proved",
   "theorems": [
    "mnl_below_tangent",
    "mnl_stationary_is_maximum",
    "mnl_ridge_unique_maximum"
   ],
   "note": ""
  },
  {
   "property": "C28",
   "status": "partial",
   "theorems": [
    "fisher_formula",
    "fisher_info_both",
    "fisher_info_shape",
    "fisher_info_icpt",
    "fisher_info_none",
    "mnl_fisher_info",
    "scobit_fisher_info",
    "uneven_fisher_info_no_intercepts",
    "fisher_psd_partial",
    "fisher_ridge_not_psd"
   ],
   "note": "Outer-product formula proved with ridge, for the scores as derivatives of the log-probabilities of the chosen alternatives with ridge; PSD proved without ridge and refuted with ridge (the code subtracts the penalty)."
  },
  {
   "property": "C29",
   "status": "proved",
   "theorems": [
    "robust_covariance"
   ],
   "note": ""
  },
  {
   "property": "C30",
   "status": "proved",
   "theorems": [
    "copies_probs",
    "copies_loglik",
    "copies_gradient",
    "copies_hessian",
    "copies_fisher",
    "copies_exist"
   ],
   "note": ""
  },
  {
   "property": "C31",
   "status": "partial",
   "theorems": [
    "mnl_derivs_correct",
    "scobit_derivs_correct",
    "uneven_derivs_correct",
    "clog_derivs_correct_partial",
    "clog_deriv_wrong_above",
    "clog_deriv_error_small",
    "asym_derivs_correct_partial",
    "asym_not_differentiable_at_zero"
   ],
   "note": "True for MNL, Scobit and Uneven; false of the code for Clog-log above 3.7 and Asymmetric at utility 0 (both negations proved)."
  },
  {
   "property": "C32",
   "status": "proved",
   "theorems": [
    "scobit_derivs_correct",
    "uneven_derivs_correct",
    "clog_intercept_jacobian",
    "asym_shape_jacobian",
    "asym_intercept_jacobian"
   ],
   "note": "Fields dc (shapes) and da (intercepts) of DerivsCorrect."
  },
  {
   "property": "C33",
   "status": "proved",
   "theorems": [
    "mnl_increasing",
    "scobit_increasing",
    "uneven_increasing",
    "clog_increasing",
    "asym_increasing",
    "probability_increases",
    "raised_utility",
    "mnl_own",
    "scobit_own",
    "uneven_own",
    "clog_own",
    "asym_own"
   ],
   "note": ""
  },
  {
   "property": "C34",
   "status": "proved",
   "theorems": [
    "scobit_zero_shape",
    "uneven_zero_shape",
    "asym_zero_shape_natural",
    "asym_zero_shape_probs"
   ],
   "note": ""
  },
  {
   "property": "C35",
   "status": "proved",
   "theorems": [
    "natural_shapes_are_probabilities",
    "natural_shapes_log_ratio",
    "natural_shapes_injective",
    "natural_shapes_surjective",
    "natural_shapes_jacobian"
   ],
   "note": ""
  },
  {
   "property": "C36",
   "status": "proved",
   "theorems": [
    "nested_probabilities_valid",
    "nested_probabilities_formula"
   ],
   "note": ""
  },
  {
   "property": "C37",
   "status": "proved",
   "theorems": [
    "nested_factorisation",
    "nested_unit_coefs",
    "nested_unit_coefs_mnl"
   ],
   "note": "The nest probability reported for a nest without alternatives is 1e-300 instead of 0 (stated in nested_factorisation)."
  },
  {
   "property": "C38",
   "status": "partial",
   "theorems": [
    "nested_gradient_partial",
    "nested_gradient_exact",
    "nested_gradient_correct_iff",
    "nested_gradient_wrong_example"
   ],
   "note": "With positive weights the gradient is right iff every observation has an alternative in every nest; otherwise the code adds the total weight of the observations lacking the nest times lambda(1-lambda). Proved exactly."
  },
  {
   "property": "C39",
   "status": "partial",
   "theorems": [
    "nested_ridge_gradient_partial",
    "nested_ridge_derivative",
    "nested_ridge_gradient_wrong"
   ],
   "note": "Index-coefficient components proved; nest components refuted for every dataset with all nests available."
  },
  {
   "property": "C40",
   "status": "proved",
   "theorems": [
    "naturalize_spec"
   ],
   "note": ""
  },
  {
   "property": "C41",
   "status": "partial",
   "theorems": [
    "nested_bhhh_nsd",
    "mixed_bhhh_nsd",
    "mixed_bhhh_ridge",
    "mixed_bhhh_ridge_not_nsd",
    "nested_scores_sum",
    "mixed_scores_sum"
   ],
   "note": "Proved for the nested logit with any ridge and for the mixed logit without ridge; refuted for the mixed logit with a positive ridge, whose code adds 2*ridge to the diagonal instead of subtracting it."
  },
  {
   "property": "C42",
   "status": "proved",
   "theorems": [
    "degenerate_nests",
    "constrained_positions",
    "degenerate_nest_irrelevant"
   ],
   "note": ""
  },
  {
   "property": "C43",
   "status": "proved",
   "theorems": [
    "expanded_utility",
    "createExpandedDesign_contract",
    "convertMixingNames_spec"
   ],
   "note": ""
  },
  {
   "property": "C44",
   "status": "proved",
   "theorems": [
    "sequence_probability",
    "sequence_probability_range",
    "mixed_loglik_formula",
    "mixed_loglik_nonpos"
   ],
   "note": ""
  },
  {
   "property": "C45",
   "status": "proved",
   "theorems": [
    "mixed_gradient",
    "mixed_neg_gradient"
   ],
   "note": "Inside the clipping range |utility| < 700."
  },
  {
   "property": "C46",
   "status": "proved",
   "theorems": [
    "mixed_zero_sd_probs",
    "mixed_zero_sd_loglik",
    "mixed_predict_long",
    "mixed_predict_chosen"
   ],
   "note": ""
  },
  {
   "property": "C47",
   "status": "partial",
   "theorems": [
    "panel_predict_partial",
    "panel_predict_exact",
    "panel_predict_sums",
    "panel_predict_contract",
    "panel_predict_wrong_order"
   ],
   "note": "Proved when the common individuals appear in the same order in both tables; refuted otherwise (the history is evaluated at the draws of another individual). The sums to one hold for every order."
  },
  {
   "property": "C48",
   "status": "proved",
   "theorems": [
    "split_concat",
    "concat_split",
    "split_zero_index"
   ],
   "note": ""
  },
  {
   "property": "C49",
   "status": "proved",
   "theorems": [
    "fitInitVals_iff",
    "checkInitLength_iff",
    "checkInitLength_iff_sized",
    "fitInitVals_sound",
    "fitInitVals_vals",
    "fitInitVals_groups"
   ],
   "note": ""
  },
  {
   "property": "C50",
   "status": "partial",
   "theorems": [
    "stored_params",
    "index_names",
    "addMixingNames_idempotent",
    "fit_stored",
    "sigma_column_breaks_storage"
   ],
   "note": "Proved when no index variable name contains the text \"Sigma \"; refuted by a witness otherwise (mixed logit then stores no standard-deviation names and raises)."
  },
  {
   "property": "C51",
   "status": "partial",
   "theorems": [
    "constrained_gradient",
    "maskHessian_apply",
    "gradient_method_keeps_constrained",
    "bfgs_in_gradientSpan",
    "bfgs_keeps_constrained",
    "nested_hessian_method_keeps_constrained",
    "mixed_hessian_method_keeps_constrained",
    "nested_newton_keeps_constrained",
    "mixed_newton_keeps_constrained",
    "mnl_newton_moves_constrained",
    "constrained_results_nan",
    "unconstrained_results",
    "duplicate_name_wiped"
   ],
   "note": "Proved for gradient-based methods (including an explicit BFGS recursion) for all models and for Hessian-based methods for nested and mixed logit; refuted for Newton steps on the MNL model (Hessian not masked) and for NaN reporting with duplicate names."
  },
  {
   "property": "C52",
   "status": "proved",
   "theorems": [
    "rho_squared_range",
    "rho_bar_le",
    "aic_bic",
    "bic_gt_aic_iff",
    "bic_gt_aic_iff_eight",
    "fit_rho_range",
    "mnl_fit_rho_range"
   ],
   "note": ""
  },
  {
   "property": "C53",
   "status": "proved",
   "theorems": [
    "storeInference_total",
    "standard_errors",
    "conf_int_consistent",
    "conf_int_nested",
    "conf_int_selection"
   ],
   "note": ""
  },
  {
   "property": "C54",
   "status": "proved",
   "theorems": [
    "chi_square_value",
    "chi_square_nonneg",
    "chi_square_fit",
    "chi_square_sums_draws",
    "chi_square_grows_with_draws"
   ],
   "note": ""
  },
  {
   "property": "C55",
   "status": "partial",
   "theorems": [
    "weighted_estimator_partial",
    "fit_ignores_weights",
    "fit_not_weighted"
   ],
   "note": "The property is false of the code: fit_mle drops its weights argument. Proved: results do not depend on the weights, and a data set where the result is not a maximiser of the weighted log-likelihood. The positive part holds for estimation objects that are given weights."
  },
  {
   "property": "C56",
   "status": "proved",
   "theorems": [
    "checkWeights_iff",
    "checkWeights_error"
   ],
   "note": ""
  },
  {
   "property": "C57",
   "status": "proved",
   "theorems": [
    "names_and_reference",
    "construction_refusals",
    "unnamed_reference_unchecked"
   ],
   "note": "Also proved: when no names are given, the reference position is not checked at all (witness)."
  },
  {
   "property": "C58",
   "status": "proved",
   "theorems": [
    "factory_type",
    "recreate_same",
    "recreate_settings"
   ],
   "note": ""
  },
  {
   "property": "C59",
   "status": "proved",
   "theorems": [
    "bootstrap_sample_shares",
    "bootstrap_seed_refused"
   ],
   "note": ""
  },
  {
   "property": "C60",
   "status": "proved",
   "theorems": [
    "bootstrap_dataframe",
    "bootstrap_dataframe_refusals",
    "bootstrap_id_array"
   ],
   "note": ""
  },
  {
   "property": "C61",
   "status": "proved",
   "theorems": [
    "jackknife_frames"
   ],
   "note": ""
  },
  {
   "property": "C62",
   "status": "proved",
   "theorems": [
    "percentile_interval",
    "percentile_interval_nested",
    "percentile_interval_empty",
    "percentile_interval_neg"
   ],
   "note": ""
  },
  {
   "property": "C63",
   "status": "proved",
   "theorems": [
    "bca_levels_reduce",
    "bca_interval_reduces",
    "bca_interval_formula",
    "bca_interval_ordered",
    "bca_interval_ordered_six",
    "bca_bias_direction",
    "acceleration_shift",
    "acceleration_scale",
    "acceleration_neg",
    "acceleration_const",
    "acceleration_bound"
   ],
   "note": ""
  },
  {
   "property": "C64",
   "status": "proved",
   "theorems": [
    "conf_percentage_accepted",
    "conf_percentage_levels",
    "interval_refuses_bad_percentage"
   ],
   "note": ""
  },
  {
   "property": "C65",
   "status": "proved",
   "theorems": [
    "long_form_weights",
    "abc_plus_weights",
    "abc_minus_weights"
   ],
   "note": ""
  },
  {
   "property": "C66",
   "status": "proved",
   "theorems": [
    "param_list_for_prediction",
    "param_list_lossless",
    "param_list_matches_split",
    "boot_init_iff",
    "boot_refuses_unnamed_shapes"
   ],
   "note": "Also proved: a bootstrap object refuses a model whose shape parameters were not named."
  },
  {
   "property": "C67",
   "status": "partial",
   "theorems": [
    "default_init_vals_outside",
    "default_init_vals_partial",
    "default_init_vals_misplaced",
    "default_init_vals_missing",
    "scobit_starts_at_mnl",
    "uneven_starts_at_mnl",
    "asym_starts_at_mnl"
   ],
   "note": "Without outside intercepts the labels of the MNL estimates are ignored: the positive theorem needs the same order of coefficients, and default_init_vals_misplaced shows estimates in the wrong slots otherwise. The other parts hold as stated."
  },
  {
   "property": "C68",
   "status": "partial",
   "theorems": [
    "predict_right_alternatives_partial",
    "predict_succeeds",
    "predict_wrong_count_shapes",
    "predict_wrong_count_intercepts",
    "predict_wrong_columns",
    "predict_missing_id",
    "predict_positional",
    "predict_single_intercept",
    "predict_misapplied",
    "predict_nested",
    "predict_nested_succeeds",
    "predict_nested_chosen",
    "predict_intercept_column"
   ],
   "note": "Proved when the prediction table has the alternatives of the estimation data, and that a different number of alternatives raises an error for shape models, for several intercepts and for a different number of columns. False otherwise: the alternatives are never compared, so parameters are applied by position (predict_positional, predict_misapplied) and a single outside intercept is broadcast (predict_single_intercept)."
  },
  {
   "property": "C69",
   "status": "proved",
   "theorems": [
    "mixing_positions"
   ],
   "note": ""
  },
  {
   "property": "C70",
   "status": "proved",
   "theorems": [
    "calcNestedProbs_contract",
    "nested_chosen_probability"
   ],
   "note": ""
  },
  {
   "property": "C71",
   "status": "proved",
   "theorems": [
    "abc_interval_of_mean"
   ],
   "note": ""
  },
  {
   "property": "C72",
   "status": "partial",
   "theorems": [
    "abc_interval_degenerate",
    "abc_interval_degenerate_models",
    "abc_interval_other_estimate",
    "abc_quadratic_shape_error"
   ],
   "note": "The property is false of the code: fit_mle drops the weights the ABC code passes, so every finite difference is zero and the interval is one point at every level, for every model class."
  },
  {
   "property": "C73",
   "status": "partial",
   "theorems": [
    "point_est_same_model",
    "jackknife_replicates",
    "bootstrap_replicates",
    "mnl_replicates_ignore_options",
    "replicate_needs_mnl_kwargs",
    "mixed_replicates_fail",
    "other_replicates_bind",
    "point_est_start_mnl",
    "point_est_start_other"
   ],
   "note": "Which model is estimated on which table holds as stated. The part about the options is false for MNL models: method, ridge, constrained_pos and tolerances are ignored (mnl_replicates_ignore_options); mixed logit replicates always fail because num_draws is not passed (mixed_replicates_fail)."
  },
  {
   "property": "C74",
   "status": "partial",
   "theorems": [
    "replicate_likes_partial",
    "replicate_likes_nested",
    "replicate_likes_mixed_partial",
    "replicate_likes_scobit_refused",
    "replicate_likes_scobit_one",
    "replicate_likes_one_intercepts_refused",
    "replicate_likes_one_intercept_refused",
    "replicate_likes_one_asym_refused",
    "replicate_likes_mixed_panel",
    "replicate_likes_one_asym_two",
    "replicate_likes_one_scobit_two",
    "replicate_likes_shape_count",
    "replicate_likes_too_narrow",
    "replicate_likes_extra_ignored"
   ],
   "note": "Proved for the nested logit (any number of replicates), for the logit-type models whenever the array shapes let the columns be replicates (two or more replicates, except Scobit without outside intercepts), and for the mixed logit when every individual has one observation. Elsewhere the claim is false of the code: Scobit without intercepts raises ValueError or repeats the number per row, single replicates with intercepts or of the asymmetric model raise ValueError or, with two alternatives, give one number per row of data (replicate_likes_one_asym_two, replicate_likes_one_scobit_two), and panel data gives numbers that are not the simulated log-likelihoods; each is proved."
  },
  {
   "property": "C75",
   "status": "partial",
   "theorems": [
    "predict_neither",
    "predict_parts_partial",
    "predict_nested_omits_chosen",
    "mixed_predict_both_fails",
    "predict_nested_chosen"
   ],
   "note": "Proved for the logit-type models. False for nested (only the long probabilities are returned when both are asked for) and mixed (AttributeError)."
  },
  {
   "property": "C76",
   "status": "partial",
   "theorems": [
    "param_list_check",
    "param_list_accepted_iff",
    "checkParamListArg_arrays",
    "predict_param_list_sizes",
    "predict_unnamed_intercepts"
   ],
   "note": "param_list_check determines the outcome of the check for every Python object: TypeError, ValueError or acceptance; accepted lists are the documented ones with the sizes of the names. Disagreement: a model whose outside intercepts have no names refuses every correct list."
  },
  {
   "property": "C77",
   "status": "proved",
   "theorems": [
    "run_bootstrap",
    "run_jackknife",
    "stored_percentile",
    "stored_bca",
    "stored_abc",
    "stored_all",
    "stale_percentile"
   ],
   "note": ""
  },
  {
   "property": "C78",
   "status": "proved",
   "theorems": [
    "conf_intervals_single",
    "conf_intervals_all",
    "conf_intervals_all_failed",
    "conf_intervals_refusals"
   ],
   "note": "The default arguments (all intervals without init_vals) are among the refusals."
  },
  {
   "property": "C79",
   "status": "partial",
   "theorems": [
    "gradient_norms",
    "gradient_norm_refusals",
    "gradient_norm_zero_iff",
    "mnl_gradient_norm_zero_iff_maximum_partial",
    "gradient_norm_ignores_constraints",
    "gradient_norm_constrained_nonzero"
   ],
   "note": "Sizes, values and stationarity proved without constrained parameters; false with them: constrained_pos has no effect on the norms."
  },
  {
   "property": "C80",
   "status": "proved",
   "theorems": [
    "abc_interval_of_quadratic"
   ],
   "note": ""
  },
  {
   "property": "C81",
   "status": "partial",
   "theorems": [
    "estimation_object_iff",
    "estimation_object_errors",
    "negative_ridge_no_maximum"
   ],
   "note": "The acceptance rule is proved exactly. Disagreement: a negative ridge is accepted, and the penalised log-likelihood then has no maximum (negative_ridge_no_maximum)."
  },
  {
   "property": "C82",
   "status": "partial",
   "theorems": [
    "mnl_objective",
    "mnl_objective_hessian",
    "scobit_objective",
    "scobit_objective_plain",
    "uneven_objective",
    "uneven_objective_plain",
    "clog_objective_partial",
    "clog_objective_plain_partial",
    "asym_objective_partial",
    "asym_objective_plain_partial",
    "nested_objective_partial",
    "nested_objective_iff",
    "nested_objective_ridge_partial",
    "mixed_objective",
    "scobit_curvature",
    "scobit_curvature_plain",
    "uneven_curvature",
    "uneven_curvature_plain",
    "clog_curvature_partial",
    "asym_curvature_partial"
   ],
   "note": "Proved for utilities inside the clipping range: MNL, Scobit, uneven and mixed logit in full; clog-log below utility 3.7; asymmetric logit away from its kink; nested logit exactly when every observation has an alternative in every nest with a free coefficient (nested_objective_iff) and, with a penalty, when the nest coefficients are fixed. False in the remaining nested cases (C38, C39)."
  },
  {
   "property": "C83",
   "status": "proved",
   "theorems": [
    "mnl_no_memory",
    "clog_no_memory",
    "clog_plain_no_memory",
    "scobit_no_memory",
    "scobit_plain_no_memory",
    "uneven_no_memory",
    "uneven_plain_no_memory",
    "asym_no_memory",
    "asym_plain_no_memory"
   ],
   "note": ""
  },
  {
   "property": "C84",
   "status": "partial",
   "theorems": [
    "nested_score_exact",
    "nested_bhhh_partial",
    "nested_bhhh_wrong",
    "mixed_bhhh"
   ],
   "note": "Nested: proved when every observation has an alternative in every nest; otherwise false (nested_bhhh_wrong). Mixed: proved except that the penalty enters with the wrong sign."
  },
  {
   "property": "C85",
   "status": "partial",
   "theorems": [
    "mnl_null",
    "scobit_null",
    "scobit_null_plain",
    "uneven_null",
    "uneven_null_plain",
    "clog_null",
    "clog_null_plain",
    "asym_null",
    "asym_null_plain",
    "mixed_null",
    "nested_null_partial",
    "nested_null_not_equal_shares"
   ],
   "note": "Proved for six models. False for the nested logit, whose zero vector stands for nest coefficients 1/2 and whose penalty is not zero there (exact value: nested_null_partial)."
  },
  {
   "property": "C86",
   "status": "proved",
   "theorems": [
    "fit_reports_estimates",
    "mnl_fit_reports"
   ],
   "note": ""
  },
  {
   "property": "C87",
   "status": "proved",
   "theorems": [
    "construction_iff",
    "model_mixing_positions"
   ],
   "note": ""
  },
  {
   "property": "C88",
   "status": "partial",
   "theorems": [
    "mnl_ridge_attained",
    "mnl_ridge_one_estimate",
    "scobit_ridge_attained",
    "scobit_plain_ridge_attained",
    "uneven_ridge_attained",
    "uneven_plain_ridge_attained",
    "asym_ridge_attained",
    "asym_plain_ridge_attained",
    "mixed_ridge_attained",
    "nested_ridge_not_attained",
    "clog_ridge_not_attained"
   ],
   "note": "Proved for MNL, Scobit, uneven, asymmetric and mixed logit. False for the nested logit, whose penalty acts on the bounded natural nest coefficients (nested_ridge_not_attained). False for the clog-log, whose utility transformation jumps at 3.7, so that a supremum approached from the left of the jump is not attained (clog_ridge_not_attained)."
  },
  {
   "property": "C89",
   "status": "proved",
   "theorems": [
    "mnl_estimates_agree",
    "mnl_identified_iff"
   ],
   "note": ""
  },
  {
   "property": "C90",
   "status": "proved",
   "theorems": [
    "store_fit_iff",
    "store_fit_no_stale",
    "fits_latest",
    "store_fit_consistent"
   ],
   "note": ""
  },
  {
   "property": "C91",
   "status": "partial",
   "theorems": [
    "fits_latest",
    "failed_store_mixture",
    "singular_hessian_mixture",
    "fits_mixture",
    "ridge_param_not_of_results",
    "ridge_param_last",
    "ridge_param_of_failed"
   ],
   "note": "False of the code: storing is not atomic. Proved when the last storing call succeeded (fits_latest); for a call that raises while storing, failed_store_mixture and singular_hessian_mixture say exactly which attributes are new and which are stale, and fits_mixture is a witness. The ridge_param attribute is overwritten even by calls that store nothing."
  },
  {
   "property": "C92",
   "status": "proved",
   "theorems": [
    "mnl_recoded",
    "clog_recoded",
    "scobit_recoded",
    "uneven_recoded",
    "asym_recoded",
    "nested_recoded",
    "mixed_recoded",
    "fisher_recoded",
    "reexpressed_best",
    "mnl_units",
    "clog_units",
    "scobit_units",
    "uneven_units",
    "asym_units",
    "nested_units",
    "mixed_units",
    "units_inference",
    "mnl_units_results",
    "mnl_units_ridge"
   ],
   "note": "Constrained positions are allowed for the logit-type models; nested and mixed logit without them. mnl_units_ridge gives the exact effect of units on a penalised log-likelihood."
  },
  {
   "property": "C93",
   "status": "partial",
   "theorems": [
    "predict_local_partial",
    "predict_nested_local",
    "predict_depends_on_others"
   ],
   "note": "Proved for tables with the same set of alternatives. False in general: predict reads the alternatives off the table it is given, so an added observation with a further alternative can change the probabilities of the others (predict_depends_on_others)."
  },
  {
   "property": "C94",
   "status": "proved",
   "theorems": [
    "float_probs_valid",
    "float_probs_nan_iff",
    "float_chosen_prob",
    "float_log_likelihood",
    "float_clog_ne_nan",
    "float_scobit_finite",
    "float_uneven_nan_iff",
    "float_shape_valid",
    "float_asym_finite",
    "float_models_valid",
    "float_overflow_nan",
    "float_same_sign_valid",
    "fl_add_nan_iff",
    "fl_add_inf",
    "fl_mul_nan_iff",
    "fl_mul_inf",
    "fl_lt_iff",
    "fl_div_inf",
    "fl_round_val"
   ],
   "note": "For every format and library with the laws of FloatFormat and MathLib; binary64 with correctly rounded functions satisfies them (binary64, roundedLib)."
  },
  {
   "property": "C95",
   "status": "partial",
   "theorems": [
    "float_probs_sum",
    "binary64_accurate",
    "binary64_probs_sum",
    "float_probs_overflow",
    "float_chosen_underflow"
   ],
   "note": "Proved for observations with at most 8192 rows. False in general: with 65536 rows whose utilities reach 700 the denominator overflows and every probability is reported as 1e-300 (float_probs_overflow). The probability of the chosen alternative may be reported as zero where its row has 1e-300 (float_chosen_underflow)."
  },
  {
   "property": "C96",
   "status": "partial",
   "theorems": [
    "float_probs_order",
    "float_probs_others",
    "float_scobit_saturates",
    "float_scobit_jump",
    "float_clog_jump",
    "float_scobit_not_monotone"
   ],
   "note": "Proved for the last step, from transformed utilities to probabilities, up to the 1e-300 that replaces underflows (so for the multinomial logit). False for scobit: in binary64 arithmetic the utility -720 is transformed to more than -700 is (float_scobit_not_monotone). Utilities from 38 on are all transformed to 1e300 by scobit, utilities below -38 all to -1e300 by clog-log."
  },
  {
   "property": "C97",
   "status": "proved",
   "theorems": [
    "normal_draws_iff",
    "normal_draws_errors",
    "normal_draws_seeded",
    "normal_draws_prefix",
    "normal_draws_model",
    "mixed_predict_seeded",
    "mixed_predict_rng",
    "bootstrap_samples_seeded",
    "bootstrap_samples_stream",
    "bootstrap_samples_model",
    "bootstrap_samples_rng",
    "bootstrap_samples_iff",
    "bootstrap_samples_seed_refused"
   ],
   "note": "For every generator: nothing is assumed of it except, for the samples, that np.random.choice returns as many members of the list as asked for."
  },
  {
   "property": "C98",
   "status": "proved",
   "theorems": [
    "mnl_totals",
    "mnl_maximum_totals",
    "mnl_shares",
    "clog_shares",
    "scobit_shares",
    "uneven_shares",
    "asym_shares",
    "shares_total",
    "reference_share",
    "intercept_maximum_shares",
    "transforms_add_intercepts"
   ],
   "note": ""
  },
  {
   "property": "C99",
   "status": "proved",
   "theorems": [
    "probs_of_kept_rows",
    "ratios_of_kept_rows",
    "kept_rows_gain",
    "transforms_of_kept_rows",
    "model_probs_of_kept_rows",
    "nested_ratio",
    "nested_kept_rows_gain",
    "nested_ratio_across_nests"
   ],
   "note": ""
  },
  {
   "property": "C100",
   "status": "partial",
   "theorems": [
    "float_nested_positive",
    "float_naturalize",
    "float_prob_given_nest",
    "roundedLib_powAccurate",
    "roundedLib_expRange",
    "binary64_nested_sum_partial",
    "float_nested_overflow",
    "float_nested_power_overflow",
    "float_nested_order_reversed"
   ],
   "note": "Positivity is proved for all inputs (an infinite probability is not excluded). The sum is proved in binary64 for at most 1000 rows and nests and utilities of at most 600 times the coefficient of their nest, with error 1e-11. False outside that range: probabilities far above one (float_nested_overflow, float_nested_power_overflow) and in the reverse order of the utilities (float_nested_order_reversed)."
  },
  {
   "property": "C101",
   "status": "partial",
   "theorems": [
    "library_keeps_tables",
    "library_changes_nothing_unasked",
    "created_model_holds_table",
    "models_do_not_interfere",
    "fresh_fit_reads_the_table",
    "fit_reads_the_same_partial",
    "mnl_fit_ignores_row_order",
    "fit_after_sort_reads_mixture"
   ],
   "note": "The first two parts are proved. The third is proved for histories in which the caller leaves the rows and the id columns of the table alone; it is false otherwise (fit_after_sort_reads_mixture)."
  },
  {
   "property": "C102",
   "status": "proved",
   "theorems": [
    "print_summaries_latest",
    "print_summaries_unfitted",
    "summaries_dichotomy"
   ],
   "note": "summaries_dichotomy shows that the other two cover every history."
  },
  {
   "property": "C103",
   "status": "partial",
   "theorems": [
    "statsmodels_latest_partial",
    "statsmodels_fallback",
    "statsmodels_after_failed_store",
    "statsmodels_unfitted",
    "statsmodels_mixture"
   ],
   "note": "Proved when no call after the last complete fit raised while storing its results; false otherwise (statsmodels_mixture, with the exact composition in statsmodels_after_failed_store), and the documented exception is an AttributeError after a failed first fit (statsmodels_unfitted). The reading of the object by statsmodels itself is an assumption of the model."
  },
  {
   "property": "C104",
   "status": "proved",
   "theorems": [
    "save_name",
    "save_same_file_iff",
    "save_load",
    "save_snapshot",
    "save_elsewhere"
   ],
   "note": "The laws of pickle are hypotheses; exPickler_lawful is an instance."
  },
  {
   "property": "C105",
   "status": "partial",
   "theorems": [
    "save_interrupted_partial",
    "save_not_atomic",
    "failed_save_destroys"
   ],
   "note": "Proved: no other file changes, and the file loads as the old model, the new one, or not at all. That it always loads is false for every object (save_not_atomic)."
  },
  {
   "property": "C106",
   "status": "proved",
   "theorems": [
    "predict_reproduces_fit",
    "predict_reproduces_nested_fit",
    "nested_fit_defined",
    "predict_reproduces_singular_fit",
    "mixed_predict_reproduces_fit"
   ],
   "note": "Logit-type and nested models from createChoiceModel through any history of fits; the mixed logit from the design matrix and mappings on, where asking for both kinds of probabilities raises AttributeError."
  },
  {
   "property": "C107",
   "status": "partial",
   "theorems": [
    "fit_maximises_wide_logLik_partial",
    "fit_maximises_wide_logLik_any_order_partial",
    "fit_maximises_table_logLik",
    "nested_fit_maximises_table_logLik",
    "nested_fit_maximises_wide_logLik_partial",
    "nested_fit_maximises_wide_logLik_any_order_partial",
    "mixed_fit_maximises_table_logLik",
    "mixed_fit_maximises_wide_logLik_partial",
    "mixed_fit_maximises_wide_logLik_any_order_partial",
    "mixed_fit_needs",
    "wide_fit_loses_choice"
   ],
   "note": "False when the availability dictionary is not in ascending key order: wide_fit_loses_choice. Proved for 0/1 availability cells and ascending keys, or any order in which every row has the same availability cells as in ascending order, and for every long table; all seven models (the mixed logit of a wide table when its mixing id is the observation id or an individual variable)."
  },
  {
   "property": "C108",
   "status": "partial",
   "theorems": [
    "fit_ignores_row_order",
    "nested_fit_ignores_row_order",
    "mixed_fit_ignores_row_order",
    "mixed_fit_ignores_row_order_partial",
    "mixed_fit_deals_draws",
    "mixed_fit_depends_on_order"
   ],
   "note": "Proved for logit-type models and the nested logit. For the mixed logit proved when both tables first mention the individuals in the same order (always so if ids are kept and no observation is shared by two individuals); false otherwise: mixed_fit_depends_on_order."
  },
  {
   "property": "C109",
   "status": "proved",
   "theorems": [
    "logit_fit_report",
    "logit_fit_accepts",
    "logit_fit_stores",
    "mnl_fit_report",
    "mnl_fit_accepts",
    "mnl_fit_stores",
    "mnl_fit_stores_iff",
    "mnl_fit_succeeds_iff",
    "hessian_ridge_bound",
    "fixed_parameters",
    "mnl_fit_sets_ridge",
    "logit_fit_sets_ridge"
   ],
   "note": "From the arguments of fit_mle to every stored attribute, for the multinomial, clog-log, scobit, uneven and asymmetric logit models. The property does not range over the nested and mixed models."
  },
  {
   "property": "C110",
   "status": "partial",
   "theorems": [
    "nested_fit_report_partial",
    "nested_excess_none",
    "nested_robust_nan",
    "nested_fit_accepts",
    "nested_fit_stores",
    "nested_fit_null_not_equal_shares",
    "nested_fit_sets_ridge",
    "fixed_parameters"
   ],
   "note": "From the arguments of fit_mle to every stored attribute. The code disagrees in three places: the null log-likelihood is that of zero parameters and not of equal shares (witness proved); the gradient has an excess at nest parameters, stated exactly, that is zero without penalty when every observation has a row in every nest; robust standard errors, t- and p-values are always NaN."
  },
  {
   "property": "C111",
   "status": "partial",
   "theorems": [
    "mixed_fit_report_partial",
    "mixed_robust_nan",
    "mixed_ridge_nan",
    "mixed_fit_accepts",
    "mixed_fit_stores",
    "mixed_fit_seeded",
    "mixed_fit_sets_ridge",
    "fixed_parameters"
   ],
   "note": "From the arguments of fit_mle and the state of the generator to every stored attribute, and back to predict. The code disagrees in two places, both with proved witnesses: the ridge penalty enters the matrix in place of the Hessian with the wrong sign, so that with a penalty standard errors can be NaN; robust standard errors, t- and p-values are always NaN. The stored chi-square is also summed over the draws."
  },
  {
   "property": "C112",
   "status": "partial",
   "theorems": [
    "mixed_predict_iff",
    "mixed_predict_local_partial",
    "mixed_predict_unfitted",
    "mixed_predict_depends_on_others"
   ],
   "note": "What predict returns and when is proved for every table with the alternatives of the model. The code disagrees in two places, both proved: an unfitted model refuses every param_list, and draws belong to positions among the people of the table, so that who else is in the table changes predictions; with the same people in the same order it does not."
  },
  {
   "property": "C113",
   "status": "proved",
   "theorems": [
    "bootstrap_replicates_maximise",
    "jackknife_replicates_maximise",
    "sampleLogLik_all",
    "default_extract_length",
    "default_extract_outside",
    "default_extract_inside",
    "mnl_bootstrap_succeeds",
    "mnl_jackknife_succeeds",
    "other_bootstrap_succeeds",
    "other_jackknife_succeeds"
   ],
   "note": "For the five logit-type classes. The optimiser is a parameter; with one that minimises, the replicates maximise. That the default starting values have one entry per parameter is proved; another extraction function is assumed to do so too."
  },
  {
   "property": "C114",
   "status": "partial",
   "theorems": [
    "nested_bootstrap_maximises_partial",
    "nested_jackknife_maximises_partial",
    "nestedSampleLogLik_all",
    "nested_bootstrap_succeeds",
    "nested_jackknife_succeeds"
   ],
   "note": "The objective is right for all tables and the replicates maximise it if the optimiser does; the derivatives handed to the optimiser are right at the coefficients of the index, and at nest parameters only without ridge and when every drawn observation has a row in every nest, because the code is wrong otherwise."
  },
  {
   "property": "C115",
   "status": "proved",
   "theorems": [
    "mixed_predict_simulation",
    "mixed_loglik_simulation",
    "mixed_clipping_error",
    "tape_standard"
   ],
   "note": "Proved under the stated assumption on the generator (independent standard normal draws), for real numbers."
  },
  {
   "property": "C116",
   "status": "proved",
   "theorems": [
    "bootstrap_sample_moments",
    "bootstrap_expected_count",
    "bootstrap_objectives_unbiased",
    "stratified_variance_le",
    "tape_uniform"
   ],
   "note": "Proved under the stated assumption on the generator (uniform independent choices), for real numbers."
  },
  {
   "property": "C117",
   "status": "proved",
   "theorems": [
    "bootstrap_choice_statistics",
    "bootstrap_shares_do_not_vary",
    "same_replicates_interval"
   ],
   "note": ""
  },
  {
   "property": "C118",
   "status": "partial",
   "theorems": [
    "shared_kwargs_replicates",
    "replicates_again",
    "replicates_leave_none_partial",
    "jackknife_changes_kwargs",
    "bootstrap_changes_kwargs",
    "reused_kwargs_store_nothing"
   ],
   "note": "All replicates of all calls get the same options; but the code changes the caller's dictionary, proved with its consequence for later fits."
  },
  {
   "property": "C119",
   "status": "partial",
   "theorems": [
    "float_sequence_valid",
    "float_mixed_log_likelihood",
    "float_mixer_weight",
    "float_mixed_gradient",
    "float_long_panel",
    "float_long_panel_flat",
    "float_panel_forgets",
    "float_panel_gradient",
    "float_sequence_order_reversed"
   ],
   "note": "Validity and finiteness proved for all inputs; order and dependence on the parameters fail by the replacement of underflowing probabilities, proved with witnesses."
  },
  {
   "property": "C120",
   "status": "partial",
   "theorems": [
    "logit_estimate_exists_iff",
    "logit_estimate_unique",
    "stationary_iff_estimate",
    "separated_never_best",
    "never_chosen_separates",
    "always_chosen_separates",
    "mnl_attained",
    "mnl_fit_separated",
    "mnl_fit_never_chosen",
    "jackknife_separated",
    "jackknife_lone_chooser",
    "bootstrap_separated",
    "clipping_beats_estimate"
   ],
   "note": "Existence, uniqueness and what is stored without estimates are proved for all data. That a global maximiser stores the estimate is proved unless a utility is clipped where it stops; with clipping it fails, proved with a witness."
  },
  {
   "property": "C121",
   "status": "proved",
   "theorems": [
    "mnl_fits_agree",
    "mnl_global_fits_agree",
    "mnl_fits_agree_reordered",
    "stationary_unique"
   ],
   "note": "For all multinomial logit models whose specification encodes a description of columns."
  },
  {
   "property": "C122",
   "status": "partial",
   "theorems": [
    "abc_endpoint_scaled",
    "abc_endpoints_differ",
    "abc_quadratic_scaled",
    "abc_quadratic_linear"
   ],
   "note": "The relations between the two versions are proved for all inputs; that they agree on the same inputs is false, proved with closed forms."
  },
  {
   "property": "C123",
   "status": "partial",
   "theorems": [
    "float_utility",
    "float_probs_accurate",
    "float_loglik_accurate",
    "float_gradient_accurate",
    "float_mnl_probs",
    "float_mnl_loglik",
    "float_mnl_gradient",
    "float_mnl_reproducible",
    "model_mnl_exact",
    "roundedLib_accurate",
    "float_probs_inaccurate"
   ],
   "note": "Proved when the absolute values of the terms of every utility add up to at most 300; false for large utilities, proved with a witness. Fused multiply-add is not modelled."
  },
  {
   "property": "C124",
   "status": "proved",
   "theorems": [
    "create_from_data",
    "file_as_good_as_table",
    "predict_from_data",
    "library_keeps_files",
    "paths_leave_tables",
    "failed_data_changes_nothing",
    "create_adds_model",
    "files_as_last_written",
    "file_model_is_independent"
   ],
   "note": "pd.read_csv is a parameter. Callers do not reach into attributes of models."
  },
  {
   "property": "C125",
   "status": "partial",
   "theorems": [
    "more_variables_fit_better",
    "larger_span_fits_better",
    "alternative_specific_fits_better",
    "intercepts_fit_better",
    "shapes_fit_better",
    "asym_fits_better",
    "fits_beat_equal_shares",
    "mixing_fits_better",
    "nests_fit_better",
    "asym_two_alternatives_worse"
   ],
   "note": "Asymmetric and nested logit: if the utilities of the multinomial logit fit are not extreme. Asymmetric logit with two alternatives: without ridge penalty; asym_two_alternatives_worse shows that it is false with one."
  },
  {
   "property": "C126",
   "status": "proved",
   "theorems": [
    "penalised_fit_accepts",
    "penalised_mixed_fit_accepts"
   ],
   "note": ""
  },
  {
   "property": "C127",
   "status": "partial",
   "theorems": [
    "fit_units",
    "bootstrap_units",
    "jackknife_units",
    "intervals_units",
    "percentile_interval_increasing",
    "percentile_interval_decreasing",
    "bca_interval_rescaled",
    "bca_interval_reflected",
    "bca_interval_ties",
    "fit_units_ridge",
    "Units.exNine_ridge_units"
   ],
   "note": "Without ridge penalty and where no utility is clipped at the estimates; with a ridge penalty fit_units_ridge shows that estimates follow the units only where they are zero, and exNine_ridge_units that they do not on a concrete table. BCa intervals with a negative factor: unless a replicate equals the estimate; bca_interval_ties shows that it is false then."
  },
  {
   "property": "C128",
   "status": "partial",
   "theorems": [
    "long_to_wide_silent_iff_partial",
    "long_to_wide_unused_iff",
    "wide_to_long_unused_iff",
    "wide_to_long_silent_iff_partial",
    "exVarying_shape",
    "long_to_wide_silent_loss",
    "wide_to_long_silent_wrong",
    "wide_to_long_key_order_silent"
   ],
   "note": "Proved when no column is given two roles (long to wide) and no availability is negative or between 0 and 1 (wide to long). The last three theorems show that it is false otherwise."
  },
  {
   "property": "C129",
   "status": "proved",
   "theorems": [
    "estimator_of_own_class",
    "gradient_norms_need",
    "gradient_norms_of_table",
    "gradient_norm_of_logit_fit",
    "gradient_norm_of_nested_fit",
    "gradient_norm_of_mixed_fit",
    "exThree_gradient_norm",
    "exTwins_gradient_norm",
    "exPeople_gradient_norm"
   ],
   "note": ""
  },
  {
   "property": "C130",
   "status": "proved",
   "theorems": [
    "listing_order_columns",
    "construction_ignores_listing_order",
    "fit_ignores_listing_order",
    "nested_fit_ignores_listing_order",
    "mixed_fit_ignores_listing_order",
    "fit_reports_ignore_listing_order",
    "predictions_ignore_listing_order"
   ],
   "note": ""
  },
  {
   "property": "C131",
   "status": "proved",
   "theorems": [
    "alternative_numbers_columns",
    "construction_ignores_alternative_numbers",
    "fit_ignores_alternative_numbers",
    "fit_ignores_increasing_numbers",
    "fit_reports_ignore_alternative_numbers",
    "fit_reports_ignore_increasing_numbers",
    "predictions_ignore_alternative_numbers",
    "nested_fit_ignores_alternative_numbers",
    "mixed_fit_ignores_alternative_numbers"
   ],
   "note": ""
  },
  {
   "property": "C132",
   "status": "proved",
   "theorems": [
    "logLik_ignores_reference_alternative",
    "predictions_ignore_reference_alternative",
    "fits_ignore_reference_alternative",
    "reference_alternative_matters_with_ridge"
   ],
   "note": "The last theorem is the witness for the last sentence of the statement; non-vacuity cases are in Props/ReferenceCases.lean."
  },
  {
   "property": "C133",
   "status": "proved",
   "theorems": [
    "logLik_ignores_left_out_alternative",
    "predictions_ignore_left_out_alternative",
    "fits_ignore_left_out_alternative"
   ],
   "note": "Non-vacuity cases are in Props/LeftOutCases.lean."
  },
  {
   "property": "C134",
   "status": "proved",
   "theorems": [
    "constant_variable_refused",
    "no_alternative_left_out_refused",
    "ridge_drops_constant_variable",
    "ridge_centres_coefficients"
   ],
   "note": "In exact arithmetic, as the statement says."
  }
 ]
}