{"id": "C01", "title": "Unique ids keep first-appearance order", "statement": "get_original_order_unique_ids returns every id of the input exactly once, nothing else, ordered by where each id first appears.", "quantifier": "every finite id array", "why_tests_cant": "Arrays of every length and repetition pattern must be covered.", "anchors": ["src/pylogit/choice_tools.py:get_original_order_unique_ids"]}
{"id": "C02", "title": "Mapping matrices are one-hot partitions of the rows", "statement": "In the result of create_long_form_mappings, rows_to_obs has a single 1 in each row, in the column of that row's observation id (columns in first-appearance order), rows_to_alts has a single 1 in each row, in the column of that row's alternative id (columns sorted ascending), all other entries are 0, and no column is empty.", "quantifier": "every long-format table", "why_tests_cant": "All row orders, id values and table sizes.", "anchors": ["src/pylogit/choice_tools.py:create_sparse_mapping", "src/pylogit/choice_tools.py:create_long_form_mappings"]}
{"id": "C03", "title": "chosen_row_to_obs marks exactly the chosen row of each observation", "statement": "Entry (row, obs) of chosen_row_to_obs is the row's choice value if the row belongs to that observation and 0 otherwise; so for 0/1 choices with one chosen row per observation each column holds a single 1.", "quantifier": "every long-format table with a choice column", "why_tests_cant": "All tables.", "anchors": ["src/pylogit/choice_tools.py:create_long_form_mappings"]}
{"id": "C04", "title": "rows_to_nests sends each row to the nest of its alternative", "statement": "With a nest specification in which every alternative lies in exactly one nest, each row of rows_to_nests has a single 1, in the column of the nest (in nest_spec order) that lists the row's alternative; if some alternative is in no nest, the call raises KeyError.", "quantifier": "every table and nest specification", "why_tests_cant": "All nest structures and tables.", "anchors": ["src/pylogit/choice_tools.py:create_long_form_mappings"]}
{"id": "C05", "title": "Design matrix entries follow the specification", "statement": "create_design_matrix returns one column per 'all_same' variable (its values), one per (variable, alternative) for 'all_diff' (values on that alternative's rows, 0 elsewhere, alternatives ascending), and one per group for list specifications (values on rows whose alternative is in the group, 0 elsewhere), in specification order.", "quantifier": "every valid specification dictionary and table", "why_tests_cant": "All specifications and tables.", "anchors": ["src/pylogit/choice_tools.py:create_design_matrix"]}
{"id": "C06", "title": "Design matrix has one name per column, and default names describe their column", "statement": "The list of names returned by create_design_matrix always has as many entries as the design matrix has columns, with or without a user-supplied names dictionary that passes the checks; the default name of a column is built from the variable and the alternative or group of that very column.", "quantifier": "every valid specification, names dictionary and table", "why_tests_cant": "All specifications.", "anchors": ["src/pylogit/choice_tools.py:create_design_matrix", "src/pylogit/choice_tools.py:check_keys_and_values_of_name_dictionary"]}
{"id": "C07", "title": "User supplied names label the column of the variable they were given for", "statement": "When a names dictionary is accepted, the k-th returned name is the one the user gave for the variable (and alternative/group) of the k-th design column.", "quantifier": "every accepted (specification, names) pair, including names dictionaries whose key order differs from the specification's", "why_tests_cant": "All key orders of an ordered dictionary.", "anchors": ["src/pylogit/choice_tools.py:create_design_matrix", "src/pylogit/choice_tools.py:check_keys_and_values_of_name_dictionary"]}
{"id": "C08", "title": "Specification checking accepts exactly well-formed specifications", "statement": "check_type_and_values_of_specification_dict accepts a specification iff every value is 'all_same', 'all_diff' or a list whose items are alternative ids in the data or flat lists of such ids; it reports TypeError exactly for values that are neither strings nor lists.", "quantifier": "every specification dictionary and alternative set", "why_tests_cant": "All nesting shapes.", "anchors": ["src/pylogit/choice_tools.py:check_type_and_values_of_specification_dict"]}
{"id": "C09", "title": "Nest specification validation accepts exactly partitions of the alternatives", "statement": "Model construction accepts a nest_spec iff it is non-empty, every nest is a non-empty list, and every alternative of the data occurs in exactly one nest position and no foreign id occurs.", "quantifier": "every nest specification and alternative set", "why_tests_cant": "All nest structures.", "anchors": ["src/pylogit/base_multinomial_cm_v2.py:check_type_of_nest_spec_keys_and_values", "src/pylogit/base_multinomial_cm_v2.py:check_for_empty_nests_in_nest_spec", "src/pylogit/base_multinomial_cm_v2.py:ensure_alt_ids_are_only_in_one_nest", "src/pylogit/base_multinomial_cm_v2.py:ensure_all_alt_ids_have_a_nest", "src/pylogit/base_multinomial_cm_v2.py:ensure_nest_alts_are_valid_alts"]}
{"id": "C10", "title": "Contiguity check is sound and complete", "statement": "ensure_contiguity_in_observation_rows accepts an observation-id vector iff the rows of every observation are contiguous.", "quantifier": "every integer id vector", "why_tests_cant": "All lengths and orders.", "anchors": ["src/pylogit/choice_tools.py:ensure_contiguity_in_observation_rows"]}
{"id": "C11", "title": "wide to long yields exactly the available (observation, alternative) pairs", "statement": "convert_wide_to_long returns exactly one row per (observation, available alternative), carrying that observation's id, that alternative's id, choice 1 iff it is the observation's choice, the observation's individual variables and the alternative's own variables (0 where a variable has no column for the alternative); rows are grouped by observation in the input order.", "quantifier": "every wide table, availability dictionary (any key order) and variable dictionary accepted by the checks", "why_tests_cant": "All tables and dictionary orders.", "anchors": ["src/pylogit/choice_tools.py:convert_wide_to_long"]}
{"id": "C12", "title": "Accepted wide data always yields exactly one chosen row per observation", "statement": "After the checks of convert_wide_to_long succeed, each observation has exactly one row with choice 1 in the returned long table.", "quantifier": "every accepted wide table", "why_tests_cant": "All tables.", "anchors": ["src/pylogit/choice_tools.py:convert_wide_to_long", "src/pylogit/choice_tools.py:ensure_each_wide_obs_chose_an_available_alternative", "src/pylogit/choice_tools.py:ensure_chosen_alternatives_are_in_user_alt_ids"]}
{"id": "C13", "title": "long to wide puts each observation's own choice, availability and values in its row", "statement": "convert_long_to_wide returns one row per observation in first-appearance order with that observation's own chosen alternative, a 0/1 availability per alternative, and for each alternative-specific variable the value on the observation's row for that alternative or the null value when unavailable.", "quantifier": "every long table accepted by the checks, in any row order", "why_tests_cant": "All row orders.", "anchors": ["src/pylogit/choice_tools.py:convert_long_to_wide"]}
{"id": "C14", "title": "long to wide rejects data where some observation has no or several choices", "statement": "convert_long_to_wide (via ensure_num_chosen_alts_equals_num_obs) accepts a 0/1 choice column iff every observation has exactly one chosen row.", "quantifier": "every long table", "why_tests_cant": "All distributions of choices over observations.", "anchors": ["src/pylogit/choice_tools.py:ensure_num_chosen_alts_equals_num_obs"]}
{"id": "C15", "title": "long to wide to long round trip", "statement": "Converting a long table (rows grouped by observation and ordered by alternative within each observation, one choice per observation, every alternative chosen by someone) to wide and back returns the original rows, in order, with the same ids, choices and variables.", "quantifier": "every such long table", "why_tests_cant": "All table sizes and availability patterns.", "anchors": ["src/pylogit/choice_tools.py:convert_long_to_wide", "src/pylogit/choice_tools.py:convert_wide_to_long"]}
{"id": "C16", "title": "Logit-type probabilities are positive and sum to one within each observation", "statement": "calc_probabilities returns, for each long row, a probability in (0, 1], and for each observation the probabilities of its rows sum to 1, for every coefficient vector, design matrix, utility transformation (MNL, Clog-log, Scobit, Uneven, Asymmetric or any other), shape and intercept parameters.", "quantifier": "all real parameter vectors, designs, transformations and one-hot observation mappings", "why_tests_cant": "Real-valued inputs, unbounded sizes.", "anchors": ["src/pylogit/choice_calcs.py:calc_probabilities"]}
{"id": "C17", "title": "Probabilities follow the logit formula within the observation's own choice set", "statement": "If no transformed utility exceeds 700 in absolute value, each probability is exp(h_row) divided by the sum of exp(h) over the rows of the same observation; in particular rows of other observations have no influence, and adding a constant to all of an observation's (unclipped) utilities changes nothing.", "quantifier": "all inputs with |h| <= 700", "why_tests_cant": "Real-valued inputs.", "anchors": ["src/pylogit/choice_calcs.py:calc_probabilities"]}
{"id": "C18", "title": "Clipping is visible beyond 700", "statement": "Utilities beyond +-700 are truncated: two utilities above 700 get equal probability even if they differ, so shift invariance fails there; ordering of probabilities within an observation is still weakly preserved.", "quantifier": "all real utilities", "why_tests_cant": "Boundary behaviour over all reals.", "anchors": ["src/pylogit/choice_calcs.py:calc_probabilities"]}
{"id": "C19", "title": "Chosen probabilities are the long probabilities of the chosen rows", "statement": "When both are requested, the probability reported for an observation in chosen_probs equals the long probability of that observation's single chosen row.", "quantifier": "all inputs with one chosen row per observation", "why_tests_cant": "All inputs.", "anchors": ["src/pylogit/choice_calcs.py:calc_probabilities"]}
{"id": "C20", "title": "Return shape contract of calc_probabilities", "statement": "calc_probabilities raises ValueError iff it is given both a 3D design and 2D coefficients, or neither chosen_row_to_obs nor return_long_probs; otherwise it returns the pair, the long probabilities or the chosen probabilities according to the two arguments.", "quantifier": "all argument combinations", "why_tests_cant": "Covers all combinations with all data.", "anchors": ["src/pylogit/choice_calcs.py:calc_probabilities"]}
{"id": "C21", "title": "Row order does not matter", "statement": "Permuting the rows of the long data (design, choices, weights, mapping matrices together) permutes the probabilities in the same way and leaves log-likelihood, gradient and Hessian unchanged; relabelling observation columns changes nothing either.", "quantifier": "all permutations of all datasets", "why_tests_cant": "Factorially many permutations.", "anchors": ["src/pylogit/choice_calcs.py:calc_probabilities", "src/pylogit/choice_calcs.py:calc_log_likelihood", "src/pylogit/choice_calcs.py:calc_gradient", "src/pylogit/choice_calcs.py:calc_hessian"]}
{"id": "C22", "title": "Log-likelihood is the weighted sum of log chosen probabilities minus the ridge penalty, and is never positive", "statement": "calc_log_likelihood equals the sum over observations of weight times log probability of the chosen row, minus ridge times the sum of squares of all parameters; it is <= 0 for non-negative weights and ridge; for MNL at all-zero coefficients it equals minus the sum of log choice-set sizes.", "quantifier": "all parameters and datasets", "why_tests_cant": "Real-valued inputs.", "anchors": ["src/pylogit/choice_calcs.py:calc_log_likelihood"]}
{"id": "C23", "title": "Analytic gradient is the derivative of the log-likelihood", "statement": "calc_gradient returns, component by component in the order shape, intercept, coefficients, the partial derivative of calc_log_likelihood (including ridge and per-observation weights) for every model whose supplied transform derivatives are correct, wherever no utility is clipped.", "quantifier": "all parameter vectors with |h|<700, all datasets with one choice per observation", "why_tests_cant": "Finite differences only sample and are approximate.", "anchors": ["src/pylogit/choice_calcs.py:calc_gradient"]}
{"id": "C24", "title": "MNL Hessian is the derivative of the gradient", "statement": "For the MNL model calc_hessian equals the matrix of second derivatives of calc_log_likelihood (including weights and ridge), wherever no utility is clipped.", "quantifier": "all parameter vectors and datasets", "why_tests_cant": "Real-valued inputs.", "anchors": ["src/pylogit/choice_calcs.py:calc_hessian", "src/pylogit/choice_calcs.py:quadratic_prod_wrt_dp_ds"]}
{"id": "C25", "title": "Hessian of the other logit-type models is the derivative of the gradient", "statement": "calc_hessian equals the matrix of second derivatives of the log-likelihood for the Clog-log, Scobit, Uneven and Asymmetric models.", "quantifier": "all parameter vectors and datasets", "why_tests_cant": "Real-valued inputs; the identity fails only when transforms are curved.", "anchors": ["src/pylogit/choice_calcs.py:calc_hessian"]}
{"id": "C26", "title": "Hessian is symmetric and negative semidefinite", "statement": "For every model, dataset, non-negative weights (equal on the rows of an observation) and ridge >= 0, the matrix returned by calc_hessian is symmetric and negative semidefinite.", "quantifier": "all inputs", "why_tests_cant": "Quantifies over all vectors and matrices.", "anchors": ["src/pylogit/choice_calcs.py:calc_hessian", "src/pylogit/choice_calcs.py:quadratic_prod_wrt_dp_ds"]}
{"id": "C27", "title": "MNL log-likelihood is concave, so a stationary point is a global maximum", "statement": "Wherever utilities are unclipped, if calc_gradient is zero at a coefficient vector then no other coefficient vector has a larger MNL log-likelihood (non-negative weights, ridge >= 0).", "quantifier": "all pairs of parameter vectors with unclipped utilities", "why_tests_cant": "Global optimality cannot be sampled.", "anchors": ["src/pylogit/choice_calcs.py:calc_log_likelihood", "src/pylogit/choice_calcs.py:calc_gradient"]}
{"id": "C28", "title": "Fisher information approximation is symmetric positive semidefinite", "statement": "calc_fisher_info_matrix is symmetric and positive semidefinite for all non-negative weights and ridge, and equals the weighted sum over observations of outer products of the per-observation score.", "quantifier": "all inputs", "why_tests_cant": "All vectors and matrices.", "anchors": ["src/pylogit/choice_calcs.py:calc_fisher_info_matrix"]}
{"id": "C29", "title": "Robust covariance is symmetric positive semidefinite", "statement": "calc_asymptotic_covariance returns H^-1 F H^-1, symmetric when H and F are, positive semidefinite when F is; it is the same for H and -H.", "quantifier": "all invertible symmetric matrices", "why_tests_cant": "All matrices.", "anchors": ["src/pylogit/choice_calcs.py:calc_asymptotic_covariance"]}
{"id": "C30", "title": "Integer weights act like duplicated observations", "statement": "Giving every row of each observation the integer weight k has the same effect on log-likelihood, gradient, Hessian and (unpenalised) Fisher information as including that observation k times.", "quantifier": "all datasets and integer weights", "why_tests_cant": "All weights.", "anchors": ["src/pylogit/choice_calcs.py:calc_log_likelihood", "src/pylogit/choice_calcs.py:calc_gradient", "src/pylogit/choice_calcs.py:calc_hessian", "src/pylogit/choice_calcs.py:calc_fisher_info_matrix"]}
{"id": "C31", "title": "Supplied utility derivatives are correct", "statement": "For Scobit, Uneven, Clog-log and Asymmetric models, the derivative of the transformed utility with respect to the systematic utility supplied to the gradient is the true derivative of the transformation at every utility.", "quantifier": "all real utilities and shape values", "why_tests_cant": "Real-valued inputs.", "anchors": ["src/pylogit/scobit.py:_scobit_transform_deriv_v", "src/pylogit/uneven_logit.py:_uneven_transform_deriv_v", "src/pylogit/clog_log.py:_cloglog_transform_deriv_v", "src/pylogit/asym_logit.py:_asym_transform_deriv_v"]}
{"id": "C32", "title": "Supplied shape and intercept derivatives are correct", "statement": "For Scobit, Uneven and Asymmetric models the derivative of the transformed utility with respect to each estimated shape parameter is the true derivative; the derivative with respect to an outside intercept is 1 on the rows of that alternative and 0 elsewhere, with the reference alternative omitted.", "quantifier": "all utilities, shapes, reference positions", "why_tests_cant": "Real-valued inputs.", "anchors": ["src/pylogit/scobit.py:_scobit_transform_deriv_shape", "src/pylogit/uneven_logit.py:_uneven_transform_deriv_shape", "src/pylogit/asym_logit.py:_asym_transform_deriv_shape", "src/pylogit/asym_logit.py:create_calc_dh_d_alpha"]}
{"id": "C33", "title": "Transformed utilities increase with systematic utility", "statement": "In every model the transformed utility of a row is strictly increasing in its systematic utility. Raising the utility of one row never lowers its probability, never raises that of another row of the observation and leaves other observations alone; with another alternative in the observation the probability rises exactly when the transformed utilities before and after are not both beyond the same bound of +-700.", "quantifier": "all utilities, shapes, intercepts and tables", "why_tests_cant": "All reals.", "anchors": ["src/pylogit/scobit.py:_scobit_utility_transform", "src/pylogit/uneven_logit.py:_uneven_utility_transform", "src/pylogit/clog_log.py:_cloglog_utility_transform", "src/pylogit/asym_logit.py:_asym_utility_transform"]}
{"id": "C34", "title": "Neutral shape parameters reduce to MNL", "statement": "With all shape parameters 0 the Scobit and Uneven models give exactly the MNL probabilities; the Asymmetric model with zero shapes and coefficients divided by log(number of alternatives) does too.", "quantifier": "all utilities and datasets", "why_tests_cant": "Real-valued inputs.", "anchors": ["src/pylogit/scobit.py", "src/pylogit/uneven_logit.py", "src/pylogit/asym_logit.py", "src/pylogit/bootstrap_mle.py:extract_default_init_vals"]}
{"id": "C35", "title": "Asymmetric natural shape parameters form a probability vector", "statement": "_convert_eta_to_c maps any J-1 reals to J strictly positive numbers that sum to 1, with the reference alternative's at its own position; it is injective; its supplied Jacobian is the true derivative.", "quantifier": "all shape vectors, reference positions and J", "why_tests_cant": "All real vectors.", "anchors": ["src/pylogit/asym_logit.py:_convert_eta_to_c", "src/pylogit/asym_logit.py:_calc_deriv_c_with_respect_to_eta"]}
{"id": "C36", "title": "Nested logit probabilities are positive and sum to one", "statement": "calc_nested_probs returns probabilities in (0,1] that sum to 1 over each observation's rows, for all positive nest coefficients, also when some nests are empty for some observations.", "quantifier": "all utilities, nest coefficients, nest structures and availability patterns", "why_tests_cant": "All inputs.", "anchors": ["src/pylogit/nested_choice_calcs.py:calc_nested_probs"]}
{"id": "C37", "title": "Nested probabilities factor into nest and conditional probabilities", "statement": "The probability of a row equals the probability of its nest times the conditional probability given the nest, as reported by return_type='all_prob_dict'; the conditional probabilities sum to 1 within each (observation, nest); with all nest coefficients 1 the result equals MNL.", "quantifier": "all inputs", "why_tests_cant": "All inputs.", "anchors": ["src/pylogit/nested_choice_calcs.py:calc_nested_probs"]}
{"id": "C38", "title": "Nested log-likelihood gradient is the derivative", "statement": "calc_nested_gradient is the vector of partial derivatives of calc_nested_log_likelihood with respect to the raw (logit-scale) nest parameters and the coefficients, with weights, for every dataset including ones where a nest is unavailable to an observation.", "quantifier": "all parameters and datasets", "why_tests_cant": "All real parameters and availability patterns.", "anchors": ["src/pylogit/nested_choice_calcs.py:calc_nested_gradient", "src/pylogit/nested_choice_calcs.py:prep_vectors_for_gradient"]}
{"id": "C39", "title": "Nested ridge penalty and its gradient agree", "statement": "With ridge given, calc_nested_gradient is still the derivative of calc_nested_log_likelihood.", "quantifier": "all parameters, all ridge values", "why_tests_cant": "All inputs.", "anchors": ["src/pylogit/nested_choice_calcs.py:calc_nested_gradient", "src/pylogit/nested_choice_calcs.py:calc_nested_log_likelihood"]}
{"id": "C40", "title": "Natural nest coefficients lie strictly between 0 and 1", "statement": "naturalize_nest_coefs maps every raw value into (0,1), strictly increasing, and negating the raw value gives the complement.", "quantifier": "all reals", "why_tests_cant": "All reals.", "anchors": ["src/pylogit/nested_choice_calcs.py:naturalize_nest_coefs"]}
{"id": "C41", "title": "BHHH Hessian approximations are symmetric negative semidefinite", "statement": "calc_bhhh_hessian_approximation (nested) and calc_bhhh_hessian_approximation_mixed_logit return symmetric negative semidefinite matrices for non-negative weights and ridge.", "quantifier": "all inputs", "why_tests_cant": "All vectors.", "anchors": ["src/pylogit/nested_choice_calcs.py:calc_bhhh_hessian_approximation", "src/pylogit/mixed_logit_calcs.py:calc_bhhh_hessian_approximation_mixed_logit"]}
{"id": "C42", "title": "Degenerate nests are identified and constrained", "statement": "identify_degenerate_nests returns exactly the positions of nests with one alternative; fit_mle of the nested logit constrains those and the user's positions; for a degenerate nest the probabilities do not depend on its nest parameter.", "quantifier": "all nest specifications", "why_tests_cant": "All nest structures.", "anchors": ["src/pylogit/nested_logit.py:identify_degenerate_nests", "src/pylogit/nested_logit.py:NestedLogit.fit_mle"]}
{"id": "C43", "title": "Expanded mixing design encodes random coefficients", "statement": "The utility of a row under draw d computed from create_expanded_design_for_mixing and parameters (mean coefficients, sigmas) equals the utility with each mixed coefficient replaced by mean + sigma times the draw of that row's individual.", "quantifier": "all designs, draws, mixing positions and parameters", "why_tests_cant": "All inputs.", "anchors": ["src/pylogit/mixed_logit_calcs.py:create_expanded_design_for_mixing"]}
{"id": "C44", "title": "Simulated sequence probability is the draw average of products of chosen probabilities", "statement": "calc_choice_sequence_probs returns for each individual the average over draws of the product of the probabilities of the rows the individual chose; values lie in (0,1]; the mixed log-likelihood is <= 0.", "quantifier": "all probability arrays", "why_tests_cant": "All inputs.", "anchors": ["src/pylogit/mixed_logit_calcs.py:calc_choice_sequence_probs", "src/pylogit/mixed_logit_calcs.py:calc_mixed_log_likelihood"]}
{"id": "C45", "title": "Mixed logit gradient is the derivative of the simulated log-likelihood", "statement": "calc_mixed_logit_gradient is the vector of partial derivatives of calc_mixed_log_likelihood with respect to means and sigmas, including weights and ridge.", "quantifier": "all parameters, draws, panel structures; weights constant within an individual", "why_tests_cant": "All inputs.", "anchors": ["src/pylogit/mixed_logit_calcs.py:calc_mixed_logit_gradient", "src/pylogit/mixed_logit_calcs.py:calc_mixed_log_likelihood"]}
{"id": "C46", "title": "Mixed logit with zero sigmas is MNL; predictions sum to one", "statement": "With zero standard deviations every draw gives MNL probabilities; the averaged long probabilities returned by predict sum to 1 per observation for any sigmas.", "quantifier": "all inputs", "why_tests_cant": "All inputs.", "anchors": ["src/pylogit/mixed_logit_calcs.py:calc_choice_sequence_probs", "src/pylogit/base_multinomial_cm_v2.py:MNDC_Model.predict"]}
{"id": "C47", "title": "Panel predictions weight each individual's draws by that individual's own history", "statement": "MixedLogit.panel_predict returns, for each new row, the draw-average of kernel probabilities weighted by the individual's own normalised past sequence likelihood under the same draws; weights are 1/num_draws for individuals without history; predictions sum to 1 per observation.", "quantifier": "all estimation and prediction tables, including ones listing the individuals in different orders", "why_tests_cant": "All id orders.", "anchors": ["src/pylogit/mixed_logit.py:MixedLogit.panel_predict"]}
{"id": "C48", "title": "Parameter vectors split losslessly", "statement": "For every model, split_param_vec applied to the concatenation of the parameter groups in estimator order returns those groups, and concatenating the pieces it returns gives the parameter vector back, whenever the length check of the estimator passes.", "quantifier": "all parameter vectors and numbers of alternatives", "why_tests_cant": "All lengths.", "anchors": ["src/pylogit/asym_logit.py:split_param_vec", "src/pylogit/scobit.py:split_param_vec", "src/pylogit/uneven_logit.py:split_param_vec", "src/pylogit/clog_log.py:split_param_vec", "src/pylogit/nested_logit.py:split_param_vec", "src/pylogit/mixed_logit.py:split_param_vec", "src/pylogit/conditional_logit.py:split_param_vec"]}
{"id": "C49", "title": "Initial value length checks accept exactly the right lengths", "statement": "check_length_of_initial_values accepts a vector iff its length is the number of design columns plus the model's shape, intercept, nest or mixing parameters (with intercepts optional for the models that allow them).", "quantifier": "all lengths and models", "why_tests_cant": "All sizes.", "anchors": ["src/pylogit/asym_logit.py:AsymEstimator", "src/pylogit/scobit.py:ScobitEstimator", "src/pylogit/uneven_logit.py:UnevenEstimator", "src/pylogit/clog_log.py:ClogEstimator", "src/pylogit/nested_logit.py:NestedEstimator", "src/pylogit/mixed_logit.py:check_length_of_init_values"]}
{"id": "C50", "title": "Reported parameters carry the right names", "statement": "After store_fit_results, the series of all parameters has, in order nest, shape, intercept, index, the estimated values under the matching names; its values are the estimated vector in estimator order.", "quantifier": "all models, numbers of parameters and estimates", "why_tests_cant": "All sizes.", "anchors": ["src/pylogit/base_multinomial_cm_v2.py:MNDC_Model.store_fit_results", "src/pylogit/base_multinomial_cm_v2.py:MNDC_Model._store_optional_parameters"]}
{"id": "C51", "title": "Constrained parameters stay at their initial values", "statement": "Positions listed in constrained_pos have zero gradient, so the optimizer never moves them, whichever gradient- or Hessian-based method is used; the reported standard error, t and p values of those parameters (only) are NaN.", "quantifier": "all constrained sets, models and optimisation steps", "why_tests_cant": "All iterates of all runs.", "anchors": ["src/pylogit/estimation.py:EstimationObj.calc_neg_log_likelihood_and_neg_gradient", "src/pylogit/estimation.py:EstimationObj.calc_neg_hessian", "src/pylogit/nested_logit.py:NestedEstimator.convenience_calc_hessian", "src/pylogit/base_multinomial_cm_v2.py:MNDC_Model._adjust_inferential_results_for_parameter_constraints"]}
{"id": "C52", "title": "Goodness-of-fit statistics are consistent", "statement": "rho-squared is 1 - LL/LL0 and lies in [0,1] when LL0 <= LL <= 0 and LL0 < 0; rho-bar-squared never exceeds it for a non-negative parameter count; AIC = 2k - 2LL and BIC = k log n - 2LL; BIC penalises more than AIC iff n > e^2.", "quantifier": "all values", "why_tests_cant": "Reals.", "anchors": ["src/pylogit/estimation.py:calc_rho_and_rho_bar_squared", "src/pylogit/base_multinomial_cm_v2.py:compute_aic", "src/pylogit/base_multinomial_cm_v2.py:compute_bic"]}
{"id": "C53", "title": "Confidence intervals, standard errors and t-values are consistent", "statement": "conf_int gives params -+ z * se with z the normal quantile of 1 - alpha/2: the interval contains the estimate, is symmetric, grows as alpha decreases, and 0 is outside it iff |t| > z iff p-value < alpha.", "quantifier": "all parameters, standard errors > 0 and alpha in (0,1)", "why_tests_cant": "Reals.", "anchors": ["src/pylogit/base_multinomial_cm_v2.py:MNDC_Model.conf_int", "src/pylogit/base_multinomial_cm_v2.py:MNDC_Model._store_inferential_results"]}
{"id": "C54", "title": "Individual chi-squares are non-negative and equal 1/p - 1", "statement": "calc_individual_chi_squares gives for each observation with one chosen row with probability p and probabilities summing to 1 the value 1/p - 1.", "quantifier": "all datasets", "why_tests_cant": "Reals.", "anchors": ["src/pylogit/estimation.py:calc_individual_chi_squares"]}
{"id": "C55", "title": "Observation weights passed to fit_mle influence the estimation", "statement": "Calling fit_mle with a weights argument maximises the weighted log-likelihood.", "quantifier": "all models and weights", "why_tests_cant": "All weight vectors.", "anchors": ["src/pylogit/conditional_logit.py:MNL.fit_mle", "src/pylogit/asym_logit.py:MNAL.fit_mle", "src/pylogit/scobit.py:MNSL.fit_mle", "src/pylogit/uneven_logit.py:MNUL.fit_mle", "src/pylogit/clog_log.py:MNCL.fit_mle", "src/pylogit/nested_logit.py:NestedLogit.fit_mle", "src/pylogit/mixed_logit.py:MixedLogit.fit_mle"]}
{"id": "C56", "title": "Weights validity check", "statement": "ensure_positivity_and_length_of_weights accepts a weights vector iff it is None or has one non-negative entry per row.", "quantifier": "all vectors", "why_tests_cant": "All lengths.", "anchors": ["src/pylogit/estimation.py:ensure_positivity_and_length_of_weights"]}
{"id": "C57", "title": "Reference position and name-count validation", "statement": "For a model with named intercepts (shapes), construction succeeds only if the reference position is an integer in range and the number of names is the number of alternatives minus one; MNL rejects any intercept_ref_pos.", "quantifier": "all positions, name lists and numbers of alternatives", "why_tests_cant": "All sizes.", "anchors": ["src/pylogit/base_multinomial_cm_v2.py:ensure_ref_position_is_valid", "src/pylogit/base_multinomial_cm_v2.py:check_length_of_shape_or_intercept_names"]}
{"id": "C58", "title": "Model factory builds the requested model", "statement": "create_choice_model accepts exactly the seven documented model type strings and builds the corresponding model; get_model_abbrev inverts the mapping so bootstrapping re-creates the same model type.", "quantifier": "all strings", "why_tests_cant": "All strings.", "anchors": ["src/pylogit/pylogit.py:create_choice_model", "src/pylogit/pylogit.py:ensure_valid_model_type", "src/pylogit/bootstrap_mle.py:get_model_abbrev", "src/pylogit/construct_estimator.py:create_estimation_obj"]}
{"id": "C59", "title": "Stratified bootstrap preserves the market shares", "statement": "create_cross_sectional_bootstrap_samples returns samples with the same number of observations as the data and, for each alternative, the same number of observations choosing it; all sampled ids occur in the data.", "quantifier": "all datasets and all random draws", "why_tests_cant": "All random outcomes.", "anchors": ["src/pylogit/bootstrap_sampler.py:create_cross_sectional_bootstrap_samples"]}
{"id": "C60", "title": "Bootstrap data frame contains exactly the resampled observations", "statement": "create_bootstrap_dataframe concatenates, in sample order, copies of all rows of each sampled observation, tagged with bootstrap ids 1..n; the bootstrap id column always passes the contiguity check and repeated observations receive distinct ids.", "quantifier": "all datasets and id samples", "why_tests_cant": "All samples.", "anchors": ["src/pylogit/bootstrap_sampler.py:create_bootstrap_dataframe"]}
{"id": "C61", "title": "Jackknife replicates drop exactly one observation", "statement": "generate_jackknife_replicates estimates one model per observation, on exactly the rows of the other observations in their original order.", "quantifier": "all datasets", "why_tests_cant": "All datasets.", "anchors": ["src/pylogit/bootstrap.py:Boot.generate_jackknife_replicates"]}
{"id": "C62", "title": "Percentile interval endpoints are observed replicates, ordered and nested", "statement": "calc_percentile_interval returns for each parameter two observed replicate values, lower <= upper, and a larger confidence percentage gives an interval containing the smaller one's.", "quantifier": "all replicate arrays and confidence percentages in (0,100)", "why_tests_cant": "All arrays.", "anchors": ["src/pylogit/bootstrap_calcs.py:calc_percentile_interval"]}
{"id": "C63", "title": "BCa interval reduces to the percentile interval without bias and acceleration", "statement": "When bias correction and acceleration are 0, the BCa percentiles are alpha/2 and 100 - alpha/2; lower endpoint never exceeds the upper one for acceleration within the valid range; acceleration is unchanged by shifting or positively scaling the jackknife replicates and changes sign when they are negated.", "quantifier": "all replicates", "why_tests_cant": "All reals.", "anchors": ["src/pylogit/bootstrap_calcs.py:calc_bca_interval", "src/pylogit/bootstrap_calcs.py:calc_acceleration_bca", "src/pylogit/bootstrap_calcs.py:calc_lower_bca_percentile"]}
{"id": "C64", "title": "Confidence percentage validation", "statement": "Interval functions accept conf_percentage iff it is strictly between 0 and 100, and the alpha and percentile levels derived from it satisfy 0 < alpha/2 < 50 < 100 - alpha/2 < 100.", "quantifier": "all numbers", "why_tests_cant": "Reals.", "anchors": ["src/pylogit/bootstrap_utils.py"]}
{"id": "C65", "title": "ABC perturbed weights are probability weights", "statement": "The long-form weights used for the finite-difference terms put weight (1-e)/n + e on the perturbed observation and (1-e)/n on the others (and with -e for the minus term), summing to 1 over observations.", "quantifier": "all n, epsilon and observations", "why_tests_cant": "All sizes.", "anchors": ["src/pylogit/bootstrap_abc.py:calc_finite_diff_terms_for_abc", "src/pylogit/bootstrap_abc.py:create_long_form_weights"]}
{"id": "C66", "title": "Parameter list for prediction inverts parameter ordering", "statement": "get_param_list_for_prediction slices a bootstrap replicate, ordered nest, shape, intercept, index, into the list [index, intercept, shape, nest] expected by predict, with None for absent groups, losing nothing.", "quantifier": "all models and replicates", "why_tests_cant": "All sizes.", "anchors": ["src/pylogit/bootstrap.py:get_param_list_for_prediction"]}
{"id": "C67", "title": "Default bootstrap starting values are the MNL estimates in the right slots", "statement": "extract_default_init_vals returns a vector with one entry per parameter, zeros for shapes, nests and sigmas, and the MNL estimates for intercepts and coefficients, divided by log(number of alternatives) for the asymmetric model, so that shape models start from the MNL probabilities.", "quantifier": "all models and MNL estimates", "why_tests_cant": "All sizes.", "anchors": ["src/pylogit/bootstrap_mle.py:extract_default_init_vals"]}
{"id": "C68", "title": "Predict uses the parameters of the alternative they were estimated for", "statement": "predict on new data applies each estimated alternative-specific parameter to rows of the same alternative, or raises an error when the set of alternatives differs from estimation.", "quantifier": "all prediction tables", "why_tests_cant": "All alternative sets.", "anchors": ["src/pylogit/base_multinomial_cm_v2.py:MNDC_Model.predict", "src/pylogit/choice_tools.py:create_design_matrix"]}
{"id": "C69", "title": "Mixing variable names map to design columns", "statement": "convert_mixing_names_to_positions returns for each mixing variable the position of its first occurrence among the design column names and raises ValueError when absent.", "quantifier": "all name lists", "why_tests_cant": "All lists.", "anchors": ["src/pylogit/choice_tools.py:convert_mixing_names_to_positions"]}
{"id": "C70", "title": "Nested probability function: errors, parts and chosen probabilities", "statement": "calc_nested_probs raises ValueError exactly for an unknown return_type or when chosen probabilities are requested without chosen_row_to_obs; otherwise it returns the parts asked for, and the chosen probability of an observation is the nested logit probability of its chosen row.", "quantifier": "all inputs and return types", "why_tests_cant": "All inputs.", "anchors": ["src/pylogit/nested_choice_calcs.py:calc_nested_probs"]}
{"id": "C71", "title": "ABC interval of a weighted mean has Efron's closed form", "statement": "When the estimate is a weighted mean of per-observation values, calc_abc_interval returns, for every parameter and level, the endpoints mu + SE*w/(1-a*w)^2 with w = a + z, where SE is the infinitesimal-jackknife standard error, a the acceleration and z the normal quantile of the level, independently of epsilon.", "quantifier": "all numbers of observations, values, levels and non-zero step sizes", "why_tests_cant": "Reals and all sizes.", "anchors": ["src/pylogit/bootstrap_abc.py:calc_abc_interval"]}
{"id": "C72", "title": "ABC intervals reflect sampling uncertainty", "statement": "The ABC interval of a fitted model widens with the confidence level and has positive width when the estimate depends on the data.", "quantifier": "all fitted models and levels", "why_tests_cant": "All data sets.", "anchors": ["src/pylogit/bootstrap_abc.py:calc_abc_interval", "src/pylogit/conditional_logit.py:MNL.fit_mle"]}
{"id": "C73", "title": "Replicates are estimates of the same model on each resampled table", "statement": "generate_bootstrap_replicates and generate_jackknife_replicates produce one row per sample (per observation), in order, and each row is the estimate obtained by fitting a model of the same class, specification, names, nests and mixing variables to that sample's table with the options given by the caller.", "quantifier": "all models, samples and fitting procedures", "why_tests_cant": "All data sets and models.", "anchors": ["src/pylogit/bootstrap.py:Boot.generate_bootstrap_replicates", "src/pylogit/bootstrap.py:Boot.generate_jackknife_replicates", "src/pylogit/bootstrap_mle.py:retrieve_point_est"]}
{"id": "C74", "title": "Log-likelihoods of replicates", "statement": "calc_log_likes_for_replicates returns one number per replicate, and each is the log-likelihood on the model's data of that replicate's parameters.", "quantifier": "all models, data sets and numbers of replicates", "why_tests_cant": "All shapes of the replicate array and all models.", "anchors": ["src/pylogit/bootstrap.py:Boot.calc_log_likes_for_replicates", "src/pylogit/choice_calcs.py:calc_probabilities"]}
{"id": "C75", "title": "Predict returns the parts it documents", "statement": "predict returns (chosen_probs, long_probs) when choice_col is given and return_long_probs is set, long_probs when only the latter, chosen_probs when only the former, and raises an error when neither.", "quantifier": "all models, tables and arguments", "why_tests_cant": "All model types and inputs.", "anchors": ["src/pylogit/base_multinomial_cm_v2.py:MNDC_Model.predict"]}
{"id": "C76", "title": "Predict checks the sizes of param_list", "statement": "predict accepts a param_list only if it has one index coefficient per design column of the estimation and one intercept, shape and nest coefficient for each such parameter of the model, and accepts every list that does.", "quantifier": "all models and parameter lists", "why_tests_cant": "All sizes.", "anchors": ["src/pylogit/base_multinomial_cm_v2.py:MNDC_Model.check_param_list_validity"]}
{"id": "C77", "title": "Stored bootstrap tables are those of the latest successful call", "statement": "After any sequence of calls on a Boot object, completed or failed, each interval table it holds is the one computed by the latest call that asked for that kind of interval and could compute it, from the replicates that were the latest at that time; the replicates it holds are those of the last completed generation.", "quantifier": "all histories of calls, including failing ones", "why_tests_cant": "All histories.", "anchors": ["src/pylogit/bootstrap.py:Boot"]}
{"id": "C78", "title": "calc_conf_intervals computes exactly the requested tables", "statement": "A call for one kind of interval stores that table and changes nothing else, or fails and changes nothing; a call for all kinds stores the three tables at the requested percentage and a combined table whose labelled columns hold their values; other types and percentages outside (0, 100) are refused.", "quantifier": "all object states, percentages, types and ABC settings", "why_tests_cant": "All states.", "anchors": ["src/pylogit/bootstrap.py:Boot.calc_conf_intervals", "src/pylogit/bootstrap.py:Boot.calc_percentile_interval", "src/pylogit/bootstrap.py:Boot.calc_bca_interval", "src/pylogit/bootstrap.py:Boot.calc_abc_interval"]}
{"id": "C79", "title": "Gradient norms of replicates measure convergence", "statement": "calc_gradient_norm_for_replicates returns one number per replicate: the Euclidean norm of the gradient of the log-likelihood over the parameters that are not constrained; it is zero exactly when the replicate is stationary, for the MNL model exactly when it maximises the log-likelihood.", "quantifier": "all models, data sets and replicates", "why_tests_cant": "All parameter values.", "anchors": ["src/pylogit/bootstrap.py:Boot.calc_gradient_norm_for_replicates", "src/pylogit/construct_estimator.py:create_estimation_obj"]}
{"id": "C80", "title": "ABC interval of a quadratic statistic follows Efron's algorithm", "statement": "When the estimate is a quadratic function of the observation weights, calc_abc_interval returns, for every parameter and level, mu + SE*lambda + C*lambda^2/2 with lambda = w/(1-a*w)^2, w = z0 + z, where SE and a are the infinitesimal-jackknife standard error and acceleration, C the second derivative along the least favourable direction, and z0 the bias correction built from the exact bias and curvature; the step size does not matter.", "quantifier": "all numbers of observations, quadratic statistics, levels and step sizes whose differences exceed the code's tolerances", "why_tests_cant": "Reals and all sizes.", "anchors": ["src/pylogit/bootstrap_abc.py:calc_abc_interval", "src/pylogit/bootstrap_abc.py:calc_2nd_order_influence_abc", "src/pylogit/bootstrap_abc.py:efron_quadratic_coef_abc"]}
{"id": "C81", "title": "Estimation objects are built only from sound arguments", "statement": "An estimation object is built exactly when ridge is None or a number (documented as non-negative), the observation ids of the rows are in non-decreasing order and the weights are None or one non-negative number per row; it then uses exactly those arguments; other ridge arguments raise TypeError and the rest ValueError.", "quantifier": "all arguments", "why_tests_cant": "All id lists, weights and ridge values.", "anchors": ["src/pylogit/estimation.py:EstimationObj.__init__", "src/pylogit/construct_estimator.py:create_estimation_obj", "src/pylogit/choice_tools.py:ensure_ridge_is_scalar_or_none"]}
{"id": "C82", "title": "The optimiser is given the negative log-likelihood and its derivatives", "statement": "For each of the seven models, with or without outside intercepts, weights, ridge and constrained parameters, the function handed to the optimiser returns minus the documented (weighted, penalised) log-likelihood together with its derivatives at the free parameters and zeros at the constrained ones; the Hessian handed over is that of the objective for MNL and the documented covariance matrix for the other logit-type models.", "quantifier": "all data sets, parameters, weights, penalties and constraints", "why_tests_cant": "Reals and all sizes.", "anchors": ["src/pylogit/estimation.py:EstimationObj.calc_neg_log_likelihood_and_neg_gradient", "src/pylogit/estimation.py:LogitTypeEstimator", "src/pylogit/nested_logit.py:NestedEstimator", "src/pylogit/mixed_logit.py:MixedEstimator"]}
{"id": "C83", "title": "Evaluations of a model have no memory", "statement": "Although the derivative matrices are created once and overwritten at every evaluation, the log-likelihood, gradient, Hessian and Fisher matrix obtained at any parameters depend on those parameters only, not on what was evaluated before; and the mapping from rows to alternatives that the model was given is never changed.", "quantifier": "all histories of evaluations, all parameters, data, penalties, weights and constraints", "why_tests_cant": "Stale or shared buffers show only after particular sequences of evaluations; the histories are unbounded.", "anchors": ["src/pylogit/scobit.py:create_calc_dh_d_shape", "src/pylogit/asym_logit.py:create_calc_dh_d_shape", "src/pylogit/asym_logit.py:_asym_transform_deriv_shape", "src/pylogit/clog_log.py:create_calc_dh_dv", "src/pylogit/uneven_logit.py:create_calc_dh_d_shape", "src/pylogit/estimation.py:LogitTypeEstimator"]}
{"id": "C84", "title": "BHHH matrices are sums of outer products of individual scores", "statement": "calc_bhhh_hessian_approximation and its mixed logit version return minus the weighted sum, over observations (individuals), of the outer product of the derivatives of the logarithm of the probability of that observation's choice (individual's choices), minus twice the ridge on the diagonal.", "quantifier": "all data sets, parameters, weights and penalties", "why_tests_cant": "Reals and all sizes.", "anchors": ["src/pylogit/nested_choice_calcs.py:calc_bhhh_hessian_approximation", "src/pylogit/mixed_logit_calcs.py:calc_bhhh_hessian_approximation_mixed_logit"]}
{"id": "C85", "title": "The null log-likelihood is that of equal shares", "statement": "The null log-likelihood reported with a fit, against which rho-squared is computed, is the log-likelihood of choosing with equal probability among the alternatives available to each observation, for every model and whatever the penalty.", "quantifier": "all data sets, models, weights and penalties", "why_tests_cant": "All data sets.", "anchors": ["src/pylogit/estimation.py:estimate"]}
{"id": "C86", "title": "Reported statistics belong to the reported estimates", "statement": "The final log-likelihood, gradient and Hessian reported with a fit are those of the model at the reported parameters, whatever path the optimiser took.", "quantifier": "all models, optimisers and starting values", "why_tests_cant": "All optimiser behaviours.", "anchors": ["src/pylogit/estimation.py:estimate", "src/pylogit/estimation.py:calc_and_store_post_estimation_results"]}
{"id": "C87", "title": "A model is built exactly when its documented requirements hold", "statement": "For each of the seven model types, construction succeeds if and only if: the id columns exist; the specification's variables are numeric columns (intercept may be missing); specification and names describe a design matrix; names of shapes and outside intercepts have the right number and their reference position is a position of an alternative; nests partition the alternatives; mixing variables are names of columns of the design matrix. The positions recorded for mixing variables are those of their columns.", "quantifier": "all model types, tables, specifications, names and other arguments", "why_tests_cant": "Every combination of arguments; necessity and sufficiency of the checks together.", "anchors": ["src/pylogit/pylogit.py:create_choice_model", "src/pylogit/base_multinomial_cm_v2.py:MNDC_Model.__init__", "src/pylogit/base_multinomial_cm_v2.py:ensure_all_mixing_vars_are_in_the_name_dict", "src/pylogit/choice_tools.py:convert_mixing_names_to_positions"]}
{"id": "C88", "title": "With a positive ridge penalty a best parameter vector exists", "statement": "When a positive ridge penalty is given, the penalised log-likelihood that fit_mle maximises attains its maximum over the free parameters, whatever the data, starting values and constrained positions, and every maximiser x satisfies ridge * sum(x^2) <= -LL(starting values). For the MNL the maximiser is unique when that bound keeps the utilities away from the clipping threshold, and the gradient given to the optimiser is zero there.", "quantifier": "all data sets with one choice per observation, non-negative weights, positive penalties, starting values and constrained positions", "why_tests_cant": "Existence of a maximum over an unbounded parameter space.", "anchors": ["src/pylogit/choice_calcs.py:calc_log_likelihood", "src/pylogit/mixed_logit_calcs.py:calc_mixed_log_likelihood", "src/pylogit/nested_choice_calcs.py:calc_nested_log_likelihood", "src/pylogit/estimation.py:estimate"]}
{"id": "C89", "title": "MNL estimates are determined by the data up to unidentified directions", "statement": "Any two maximisers of the MNL log-likelihood (with or without penalty, utilities within the clipping range) give the same probabilities to every observation of positive weight. Without a penalty a maximiser inside the range is the only one exactly when no change of the free coefficients shifts the utilities of each observation by a common amount.", "quantifier": "all data sets with one choice per observation, observation weights, constrained positions and starting values", "why_tests_cant": "Uniqueness over all coefficient vectors, and both directions of the equivalence.", "anchors": ["src/pylogit/choice_calcs.py:calc_log_likelihood", "src/pylogit/conditional_logit.py:MNLEstimator"]}
{"id": "C90", "title": "After a successful fit every reported result belongs to that fit", "statement": "Whatever calls of fit_mle were made before on the same model object (successful, failed, or point estimates only), after a call that returns normally all result attributes - parameters, standard errors, t and p values, covariances, log-likelihoods, probabilities, residuals, counts, AIC, BIC, summary and fit_summary - are those this call alone would have left on the fresh object; they are mutually consistent, in the same order and under the same labels. Later calls with just_point=True change none of them. Storing succeeds exactly when the labels match the parameters, the Hessian is invertible and the constrained positions exist.", "quantifier": "all histories of fit_mle calls on a model object, all results of the optimiser", "why_tests_cant": "Histories of any length, any results, and the order of some forty assignments.", "anchors": ["src/pylogit/base_multinomial_cm_v2.py:MNDC_Model.store_fit_results", "src/pylogit/base_multinomial_cm_v2.py:MNDC_Model._store_generic_inference_results", "src/pylogit/base_multinomial_cm_v2.py:MNDC_Model._create_results_summary"]}
{"id": "C91", "title": "A model object never mixes results of two fits", "statement": "At every moment between calls, also after a call of fit_mle that raised, the result attributes of a model object all come from one and the same fit.", "quantifier": "all histories of fit_mle calls on a model object, whichever of them raise and at which statement", "why_tests_cant": "Every point at which storing may raise, after every history.", "anchors": ["src/pylogit/base_multinomial_cm_v2.py:MNDC_Model.store_fit_results", "src/pylogit/base_multinomial_cm_v2.py:MNDC_Model._store_basic_estimation_results"]}
{"id": "C92", "title": "Units of measurement and coding of the variables do not matter", "statement": "Without a ridge penalty, multiplying the variables by non-zero factors changes nothing but the units: dividing each coefficient (and, for the mixed logit, each standard deviation) by its variable's factor gives the same log-likelihood; a parameter vector maximises the log-likelihood exactly when the converted one maximises it for the rescaled data; standard errors and robust standard errors are divided by the sizes of the factors, t values keep their sizes and p values stay the same. More generally, replacing the columns of the design matrix by invertible combinations of them (another coding of the same variables) re-expresses the log-likelihood, gradient, Hessian and Fisher information accordingly.", "quantifier": "all seven models, all data sets, weights, factors, recodings and parameter vectors", "why_tests_cant": "It relates the fits of two different data sets for every parameter vector and every choice of units; a test sees one data set, one factor and one optimiser path.", "anchors": ["src/pylogit/choice_calcs.py:calc_log_likelihood", "src/pylogit/choice_calcs.py:calc_gradient", "src/pylogit/choice_calcs.py:calc_hessian", "src/pylogit/choice_calcs.py:calc_fisher_info_matrix", "src/pylogit/base_multinomial_cm_v2.py:MNDC_Model._store_generic_inference_results"]}
{"id": "C93", "title": "The prediction for an observation does not depend on the other rows of the table", "statement": "Let one prediction table hold some of the observations of another, each with all its rows, in any order. predict fails on both tables with the same error or returns the same parts for both; every row gets the same probability and every observation the same probability of its choices in both tables.", "quantifier": "all fitted logit-type and nested models, parameter lists, requested parts, pairs of tables and orders of rows", "why_tests_cant": "All pairs of tables of any size, in any row order.", "anchors": ["src/pylogit/base_multinomial_cm_v2.py:MNDC_Model.predict", "src/pylogit/choice_tools.py:create_design_matrix", "src/pylogit/choice_tools.py:create_long_form_mappings", "src/pylogit/choice_calcs.py:calc_probabilities"]}
{"id": "C94", "title": "Probabilities and log-likelihoods are numbers in floating point arithmetic", "statement": "In floating point arithmetic with overflow, underflow, rounding, infinities and NaN, predicted probabilities of the multinomial, clog-log, scobit, uneven and asymmetric models are positive finite numbers that are at most one, whenever the systematic utilities and intercepts are finite and the shape parameters are not NaN, however extreme they are. A probability is NaN exactly when a transformed utility of the same observation is NaN. The log-likelihood of such a model is finite and never positive for tables of any realistic size.", "quantifier": "all floating point formats and elementary function libraries that satisfy a few laws (IEEE 754 binary64 is shown to), all tables, utilities, intercepts and shape parameters, weights between zero and a bound", "why_tests_cant": "All floating point values at all places of tables of all sizes, on all platforms.", "anchors": ["src/pylogit/choice_calcs.py:calc_probabilities", "src/pylogit/choice_calcs.py:calc_log_likelihood", "src/pylogit/clog_log.py:_cloglog_utility_transform", "src/pylogit/scobit.py:_scobit_utility_transform", "src/pylogit/uneven_logit.py:_uneven_utility_transform", "src/pylogit/asym_logit.py:_asym_utility_transform", "src/pylogit/asym_logit.py:_convert_eta_to_c"]}
{"id": "C95", "title": "Probabilities sum to one up to rounding errors", "statement": "In binary64 arithmetic the predicted probabilities of an observation's alternatives are numbers whose exact sum differs from one by at most 1e-11, however large or small the utilities are, and the probability reported for the chosen alternative is the one reported for its row.", "quantifier": "all tables and transformed utilities (including infinite ones)", "why_tests_cant": "Rounding errors, overflow and underflow depend on all the utilities and on the number of alternatives; tests use a few moderate values.", "anchors": ["src/pylogit/choice_calcs.py:calc_probabilities"]}
{"id": "C96", "title": "Larger utilities do not get smaller probabilities in floating point arithmetic", "statement": "In floating point arithmetic, an alternative with a larger systematic utility than another alternative of the observation with the same parameters does not get a smaller probability, and raising the utilities of other alternatives does not raise an alternative's probability.", "quantifier": "all tables and utilities, the multinomial, clog-log and scobit models", "why_tests_cant": "Quantifies over all pairs of floating point utilities, where saturation and overflow occur only in ranges tests do not visit.", "anchors": ["src/pylogit/choice_calcs.py:calc_probabilities", "src/pylogit/scobit.py:_scobit_utility_transform", "src/pylogit/clog_log.py:_cloglog_utility_transform"]}
{"id": "C97", "title": "Seeds make draws, predictions and bootstrap samples reproducible", "statement": "With a seed, the normal draws used by mixed logit estimation and prediction, the predicted probabilities, and the cross-sectional bootstrap samples are a function of the arguments alone: they do not depend on anything drawn before, and the global generator is left in the same state. The draws of the random coefficients are successive, distinct calls of the generator (never one draw reused), adding a random coefficient does not change the draws of the earlier ones, and requests for no units, no draws or non-integer numbers are refused. Without a seed, whatever the generator returns, predictions still sum to one and samples still reproduce the shares of the alternatives.", "quantifier": "all generators, generator states (that is, histories of earlier draws), seeds, numbers of units, draws and variables, and tables", "why_tests_cant": "Quantifies over all histories of the process-wide generator and over all generators.", "anchors": ["src/pylogit/mixed_logit_calcs.py:get_normal_draws", "src/pylogit/base_multinomial_cm_v2.py:MNDC_Model.predict", "src/pylogit/bootstrap_sampler.py:create_cross_sectional_bootstrap_samples"]}
{"id": "C98", "title": "Estimates reproduce observed totals and market shares", "statement": "For the multinomial logit, the gap between the observed total of a variable (over the chosen alternatives, weighted) and the total the model predicts is exactly the gradient entry plus the ridge term, so at a maximum of the unpenalised log-likelihood all totals agree, and with a constant for an alternative its predicted and observed number of choices agree. For the clog-log, scobit, uneven and asymmetric models the same holds for every alternative with an outside intercept, and then also for the reference alternative. Where an optimiser stops with a gradient of at most eps, the totals agree up to eps, and the reference share up to the number of intercepts times eps.", "quantifier": "all datasets, designs, weights constant within observations, penalties and parameter values (for the maxima: transformed utilities below 700 in absolute value)", "why_tests_cant": "Holds for every dataset and every converged fit.", "anchors": ["src/pylogit/choice_calcs.py:calc_gradient", "src/pylogit/choice_calcs.py:calc_log_likelihood", "src/pylogit/choice_calcs.py:calc_probabilities"]}
{"id": "C99", "title": "Removing alternatives", "statement": "With the same parameters, in the five logit-type models removing alternatives from choice sets rescales the probabilities of the remaining alternatives in proportion: ratios do not change, no remaining alternative becomes less probable, and it becomes strictly more probable if an alternative of its observation was removed. In the nested logit, ratios within a nest depend only on the two utilities and the coefficient of the nest, no remaining alternative becomes less probable as long as nest coefficients are at most one, while ratios between nests may change.", "quantifier": "all tables, all selections of rows, all parameter values", "why_tests_cant": "Quantifies over all choice sets and all subsets of them.", "anchors": ["src/pylogit/choice_calcs.py:calc_probabilities", "src/pylogit/nested_choice_calcs.py:calc_nested_probs"]}
{"id": "C100", "title": "Nested logit probabilities in floating point arithmetic", "statement": "Computed with floating point numbers, a nested logit probability is never NaN, zero or negative, and the probabilities of an observation are at most one and sum to one up to rounding.", "quantifier": "all tables, all finite utilities, all nest coefficients greater than zero and at most one (in particular all that are computed from parameters), all formats and libraries with the stated laws; sums for IEEE 754 binary64", "why_tests_cant": "Ranges over all floating point values; overflow, underflow and their guards interact only for values no test tries.", "anchors": ["src/pylogit/nested_choice_calcs.py:calc_nested_probs", "src/pylogit/nested_choice_calcs.py:naturalize_nest_coefs"]}
{"id": "C101", "title": "Tables shared between the caller and models", "statement": "The library leaves the caller's tables alone, except for a column of ones called intercept that is appended when a specification asks for it; models built on the same table do not influence each other; and a fit uses the data the model was built with.", "quantifier": "all histories of constructions, predictions and fits (successful or not) interleaved with changes of the tables by the caller, over any number of tables and models", "why_tests_cant": "Ranges over all interleavings of calls and changes of shared mutable objects.", "anchors": ["src/pylogit/base_multinomial_cm_v2.py:add_intercept_to_dataframe", "src/pylogit/base_multinomial_cm_v2.py:MNDC_Model.__init__", "src/pylogit/base_multinomial_cm_v2.py:MNDC_Model.get_mappings_for_fit", "src/pylogit/base_multinomial_cm_v2.py:MNDC_Model.predict", "src/pylogit/mixed_logit.py:MixedLogit.panel_predict", "src/pylogit/estimation.py:EstimationObj"]}
{"id": "C102", "title": "Printed summaries belong to one fit", "statement": "print_summaries shows the measures of fit and the table of parameters of the last fit_mle call that stored its results completely, whatever other calls came before or after, and raises NotImplementedError when there is no such call.", "quantifier": "all histories of fit_mle calls on a model object, including failing ones, just_point calls and calls that raise while their results are stored", "why_tests_cant": "Ranges over all histories of calls and all points at which one of them can raise.", "anchors": ["src/pylogit/base_multinomial_cm_v2.py:MNDC_Model.print_summaries", "src/pylogit/base_multinomial_cm_v2.py:MNDC_Model.store_fit_results", "src/pylogit/base_multinomial_cm_v2.py:MNDC_Model._create_fit_summary", "src/pylogit/base_multinomial_cm_v2.py:MNDC_Model._create_results_summary"]}
{"id": "C103", "title": "The statsmodels summary belongs to one fit", "statement": "get_statsmodels_summary shows numbers that all belong to one and the same fit, namely the one print_summaries shows, and raises NotImplementedError when there is none.", "quantifier": "all histories of fit_mle calls on a model object, including calls that raise while their results are stored; with and without statsmodels installed", "why_tests_cant": "Ranges over all histories of calls and all points at which one of them can raise.", "anchors": ["src/pylogit/base_multinomial_cm_v2.py:MNDC_Model.get_statsmodels_summary", "src/pylogit/base_multinomial_cm_v2.py:MNDC_Model.print_summaries", "src/pylogit/base_multinomial_cm_v2.py:MNDC_Model.conf_int", "src/pylogit/base_multinomial_cm_v2.py:MNDC_Model.store_fit_results"]}
{"id": "C104", "title": "Saved models", "statement": "A file written by to_pickle loads as the model as it was at the last save to that file, whatever happened to the model afterwards and whatever was saved under other names; no other file changes; a name without .pkl gets it appended; an argument that is no string is refused and changes nothing.", "quantifier": "all histories of changes and completed saves of a model, all arguments, all contents of the disk", "why_tests_cant": "Ranges over all histories of saves and all file names.", "anchors": ["src/pylogit/base_multinomial_cm_v2.py:MNDC_Model.to_pickle"]}
{"id": "C105", "title": "An interrupted save loses nothing", "statement": "If saving a model is interrupted or fails at any point, the file still loads, as the model saved there before or as the new one, and no other file changes.", "quantifier": "all points at which the process can stop while to_pickle writes, and all objects for which pickling raises", "why_tests_cant": "Ranges over all crash points.", "anchors": ["src/pylogit/base_multinomial_cm_v2.py:MNDC_Model.to_pickle"]}
{"id": "C106", "title": "Predicting the estimation data gives the fitted probabilities", "statement": "After a fit, predict on the table the model was built from returns exactly the stored fitted probabilities (long_fitted_probs, fitted_probs), whatever was fitted before and whatever calls that store nothing came after; for the mixed logit, with the seed and number of draws of the fit, it returns their averages over the draws.", "quantifier": "all model types, tables, specifications and estimated parameters; all histories of fit_mle calls; all states of the random number generator", "why_tests_cant": "Ranges over all tables, parameters and histories.", "anchors": ["src/pylogit/base_multinomial_cm_v2.py:MNDC_Model.predict", "src/pylogit/base_multinomial_cm_v2.py:MNDC_Model.store_fit_results", "src/pylogit/estimation.py:LogitTypeEstimator.convenience_calc_probs", "src/pylogit/nested_logit.py:NestedEstimator.convenience_calc_probs", "src/pylogit/mixed_logit.py:MixedEstimator.convenience_calc_probs"]}
{"id": "C107", "title": "A fit maximises the log-likelihood of the user's data", "statement": "Convert a wide table with convert_wide_to_long and build a model on the returned table with create_choice_model: the function of the parameters that fit_mle maximises is the log-likelihood of the wide table, the sum over its observations of the logarithm of the (nested) logit probability of the recorded choice among the available alternatives, with utilities computed from the wide columns as the specification says. For the mixed logit, it is the sum over the people in the wide table of the logarithm of the average over the draws of the product of the logit probabilities of the person's choices. For a model built directly on a long table, it is the sum over the rows of the choice times the log of the (nested) logit probability of the row within its observation.", "quantifier": "all wide tables, variable and availability dictionaries, specifications, models, draws and parameters", "why_tests_cant": "Ranges over all tables, dictionaries, specifications and parameters, through the conversion, the construction and the estimation code at once.", "anchors": ["src/pylogit/choice_tools.py:convert_wide_to_long", "src/pylogit/pylogit.py:create_choice_model", "src/pylogit/base_multinomial_cm_v2.py:MNDC_Model.__init__", "src/pylogit/estimation.py:LogitTypeEstimator.convenience_calc_log_likelihood", "src/pylogit/choice_calcs.py:calc_log_likelihood"]}
{"id": "C108", "title": "Row order and observation numbers do not matter to a fit", "statement": "Take two tables with the same rows in different orders, in which observations (and, for the mixed logit, individuals) carry different numbers but are otherwise the same, both listing observations in ascending order. Models built on them with the same arguments are fitted by maximising the same function of the parameters (for the mixed logit: with the same seed).", "quantifier": "all tables, row orders and one-to-one renumberings, specifications, model types, parameters and seeds", "why_tests_cant": "Ranges over all permutations and renumberings of all tables, through the construction, the mapping matrices and the estimation code.", "anchors": ["src/pylogit/pylogit.py:create_choice_model", "src/pylogit/base_multinomial_cm_v2.py:MNDC_Model.__init__", "src/pylogit/choice_tools.py:create_long_form_mappings", "src/pylogit/mixed_logit_calcs.py:get_normal_draws", "src/pylogit/mixed_logit.py:MixedEstimator.convenience_calc_log_likelihood", "src/pylogit/nested_logit.py:NestedEstimator.convenience_calc_log_likelihood"]}
{"id": "C109", "title": "What a fitted model reports is right about its data", "statement": "Build a multinomial, clog-log, scobit, uneven or asymmetric logit model (the last with two or more alternatives) on a long table in which every observation chose one row, and call fit_mle any number of times. After a call that stores its results (and calls that store none), the attributes describe the reported parameters on that table: log-likelihood, null log-likelihood, rho-squares, AIC, BIC, counts, fitted probabilities, residuals and chi-squares are computed from them; where the model's transformation is smooth, the Hessian holds minus the covariances of the derivatives of the utilities (for the multinomial logit, its second derivatives), and while no utility is clipped, gradient and Fisher information hold derivatives of the same log-likelihood; with a non-negative ridge penalty the variances are positive and standard errors, t- and p-values follow from the Hessian, except for parameters held fixed, which have none; predict on the table returns the fitted probabilities. A fit gets to its results exactly when its arguments are of the documented form, and stores them exactly when the Hessian is invertible, always so with a positive ridge penalty. If the optimiser minimises, the parameters maximise the log-likelihood. A parameter held fixed keeps its starting value, if the optimiser leaves alone what has a zero derivative; success flag, message and ridge penalty are on record.", "quantifier": "all tables, specifications, starting values, ridge penalties, constrained positions, optimisers that report the value of their objective where they stop, and histories of calls", "why_tests_cant": "Ranges over all tables, arguments, optimisers and histories, through every stage of a fit at once.", "anchors": ["src/pylogit/conditional_logit.py:MNL.fit_mle", "src/pylogit/estimation.py:estimate", "src/pylogit/estimation.py:calc_and_store_post_estimation_results", "src/pylogit/estimation.py:LogitTypeEstimator", "src/pylogit/base_multinomial_cm_v2.py:MNDC_Model.store_fit_results", "src/pylogit/base_multinomial_cm_v2.py:MNDC_Model.predict", "src/pylogit/asym_logit.py:MNAL.fit_mle", "src/pylogit/clog_log.py:MNCL.fit_mle", "src/pylogit/scobit.py:MNSL.fit_mle", "src/pylogit/uneven_logit.py:MNUL.fit_mle"]}
{"id": "C110", "title": "What a fitted nested logit model reports is right about its data", "statement": "Build a nested logit model on a long table in which every observation chose one row, and call fit_mle any number of times. After a call that stores its results (and calls that store none), the attributes describe the reported parameters - one per nest, one per described column - on that table: log-likelihood, rho-squares, AIC, BIC, counts, fitted probabilities, residuals and chi-squares are computed from them, the null log-likelihood is that of equal shares, the gradient holds the derivatives, the parameters of nests with one alternative stay fixed, and plain and robust inference follow from Hessian and Fisher information; predict on the table returns the fitted probabilities. A fit gets to its results exactly when its arguments are of the documented form.", "quantifier": "all tables, nest specifications, starting values, ridge penalties, constrained positions, optimisers that report the value of their objective where they stop, and histories of calls", "why_tests_cant": "Ranges over all tables, nests, arguments, optimisers and histories, through every stage of a fit at once.", "anchors": ["src/pylogit/nested_logit.py:NestedLogit.fit_mle", "src/pylogit/nested_logit.py:NestedEstimator", "src/pylogit/estimation.py:estimate", "src/pylogit/estimation.py:calc_and_store_post_estimation_results", "src/pylogit/base_multinomial_cm_v2.py:MNDC_Model.store_fit_results", "src/pylogit/base_multinomial_cm_v2.py:MNDC_Model.predict"]}
{"id": "C111", "title": "What a fitted mixed logit model reports is right about its data", "statement": "Build a mixed logit model on a long table in which every observation chose one row, and call fit_mle any number of times. After a call that stores its results (and calls that store none), the attributes describe the reported parameters - a mean per described column, a standard deviation per mixed variable under its name after 'Sigma ' - on that table and under the draws made from the seed, or from the state of the generator: an optimiser that minimises has maximised the simulated log-likelihood of the people's choices; log-likelihood, null log-likelihood (equal shares), rho-squares, AIC, BIC, counts, and fitted probabilities, residuals and chi-squares per draw are computed from the parameters; gradient and inference follow from the derivatives; predict on the table with the same draws returns the averages of the fitted probabilities. Fits with a seed can be repeated. A fit gets to its results exactly when its arguments are of the documented form.", "quantifier": "all tables, mixed variables, numbers of draws, seeds, random generators and their states, starting values, ridge penalties, constrained positions, optimisers that report the value of their objective where they stop, and histories of calls", "why_tests_cant": "Ranges over all tables, arguments, generators, optimisers and histories, through every stage of a fit at once.", "anchors": ["src/pylogit/mixed_logit.py:MixedLogit.fit_mle", "src/pylogit/mixed_logit.py:MixedEstimator", "src/pylogit/mixed_logit_calcs.py:get_normal_draws", "src/pylogit/mixed_logit_calcs.py:create_expanded_design_for_mixing", "src/pylogit/estimation.py:estimate", "src/pylogit/estimation.py:calc_and_store_post_estimation_results", "src/pylogit/base_multinomial_cm_v2.py:MNDC_Model.store_fit_results", "src/pylogit/base_multinomial_cm_v2.py:MNDC_Model.predict"]}
{"id": "C112", "title": "What predict of a mixed logit model returns for any table", "statement": "Build a mixed logit model, and call predict on any table with the same alternatives, with the stored parameters or a param_list, before or after fits. The call succeeds exactly when the table and the arguments are of the documented form, and then returns, for every row, the logit probability under the coefficients of the row's person, averaged over the draws made from the seed (or the state of the generator) - or the averaged probability of the choices marked in choice_col. Rows and observations get the same numbers whatever else is in the table.", "quantifier": "all models, tables with the model's alternatives, parameters, numbers of draws, seeds, random generators and their states", "why_tests_cant": "Ranges over all tables, parameters and generators; that the rest of the table does not matter is a statement about pairs of tables.", "anchors": ["src/pylogit/base_multinomial_cm_v2.py:MNDC_Model.predict", "src/pylogit/base_multinomial_cm_v2.py:MNDC_Model.check_param_list_validity", "src/pylogit/mixed_logit_calcs.py:get_normal_draws", "src/pylogit/mixed_logit_calcs.py:create_expanded_design_for_mixing", "src/pylogit/choice_calcs.py:calc_probabilities"]}
{"id": "C113", "title": "Bootstrap and jackknife replicates maximise the log-likelihood of the resampled data", "statement": "Build a multinomial, clog-log, scobit, uneven or asymmetric logit model and generate bootstrap or jackknife replicates. Every bootstrap replicate is where the optimiser stops when asked to maximise the (ridge-penalised) log-likelihood of the original data with every observation counted as often as it was drawn; every jackknife replicate, the log-likelihood of the data without one observation. The samples have the size of the data and its number of choices of every alternative. For a multinomial logit model in which every alternative was chosen by somebody, no bootstrap sample fails, whatever is drawn.", "quantifier": "all models of the five classes, tables, specifications, random generators and seeds, numbers of samples, optimisers, ridge penalties and fixed positions", "why_tests_cant": "Ranges over all tables, draws and optimisers; the maximum is over all parameter vectors.", "anchors": ["src/pylogit/bootstrap.py:Boot.generate_bootstrap_replicates", "src/pylogit/bootstrap.py:Boot.generate_jackknife_replicates", "src/pylogit/bootstrap_mle.py:retrieve_point_est", "src/pylogit/bootstrap_sampler.py:create_bootstrap_dataframe", "src/pylogit/estimation.py:estimate"]}
{"id": "C114", "title": "Bootstrap and jackknife replicates of a nested logit maximise the log-likelihood of the resampled data", "statement": "Build a nested logit model and generate bootstrap or jackknife replicates. Every bootstrap replicate is where the optimiser stops when asked to maximise the (ridge-penalised) nested logit log-likelihood of the original data with every observation counted as often as it was drawn; every jackknife replicate, that of the data without one observation. The parameters of nests with one alternative and those listed by the user are given derivative zero, so they are held fixed. If every alternative was chosen by somebody and the MNL model for the starting values can be estimated, no bootstrap sample fails, whatever is drawn.", "quantifier": "all nested logit models, tables, nest specifications, random generators and seeds, numbers of samples, optimisers, ridge penalties and fixed positions", "why_tests_cant": "Ranges over all tables, nests, draws and optimisers; the maximum is over all parameter vectors.", "anchors": ["src/pylogit/bootstrap.py:Boot.generate_bootstrap_replicates", "src/pylogit/bootstrap.py:Boot.generate_jackknife_replicates", "src/pylogit/bootstrap_mle.py:retrieve_point_est", "src/pylogit/nested_logit.py:NestedLogit.fit_mle", "src/pylogit/nested_logit.py:NestedEstimator"]}
{"id": "C115", "title": "Simulated probabilities and log-likelihoods of the mixed logit approach the mixed logit ones", "statement": "If the random generator returns independent standard normal draws, the probability that predict of a mixed logit model returns for a row is, on average over the draws, the integral of the logit probability over the normal distribution of the coefficients (with utilities bounded by 700 in absolute value); its variance is at most 1/(4d) for d draws, so it is off by eps or more with a probability of at most 1/(4 d eps^2). The simulated log-likelihood that fit_mle maximises is on average at most the mixed logit log-likelihood, and is off by eps or more with a probability of at most C/(d eps^2), where C depends on the table only. The bound on utilities changes a probability by at most the probability that the bound is exceeded.", "quantifier": "all mixed logit models, tables, parameter values, numbers of draws, seeds and generators, all distributions of the state of the generator under which the draws are independent standard normal", "why_tests_cant": "A statement about the distribution of results over all draws, for every number of draws and every table; a test sees single draws.", "anchors": ["src/pylogit/mixed_logit.py:MixedLogit.fit_mle", "src/pylogit/mixed_logit.py:MixedLogit.panel_predict", "src/pylogit/mixed_logit_calcs.py:get_normal_draws", "src/pylogit/mixed_logit_calcs.py:calc_mixed_log_likelihood", "src/pylogit/mixed_logit_calcs.py:calc_choice_sequence_probs"]}
{"id": "C116", "title": "Bootstrap log-likelihoods are on average the log-likelihood of the data", "statement": "If the random generator chooses uniformly and independently, every observation is drawn once per bootstrap sample on average, and the sum of any statistic over a sample is on average its sum over the data, so the log-likelihood a replicate maximises is on average, at every parameter vector, the log-likelihood of the data. The variance of such a sum is the sum over the alternatives of the squared deviations of the statistic from its mean among the observations that chose the alternative - at most what it would be if all observations were drawn alike. Sums over different samples are independent.", "quantifier": "all tables in which every observation chose one alternative, all statistics, parameter vectors, numbers of samples, seeds and generators, all distributions of the state of the generator under which choices are uniform and independent", "why_tests_cant": "A statement about the distribution of results over all draws, for every table and statistic.", "anchors": ["src/pylogit/bootstrap_sampler.py:create_cross_sectional_bootstrap_samples", "src/pylogit/bootstrap_sampler.py:relate_obs_ids_to_chosen_alts", "src/pylogit/bootstrap.py:Boot.generate_bootstrap_replicates"]}
{"id": "C117", "title": "The bootstrap does not vary what only depends on the choice shares", "statement": "Bootstrap samples are drawn among the observations that chose the same alternative, so a statistic that is the same for all observations that chose the same alternative has the same sum over every sample as over the data. In particular, if every observation has one row for every alternative and utilities depend on the alternative only (a model with constants only), every replicate comes from maximising the log-likelihood of the data itself; if that has one maximum and the optimiser finds it, all replicates equal the estimate, and every percentile interval is a single point.", "quantifier": "all models other than the nested logit, tables, random generators and seeds, numbers of samples, optimisers, confidence percentages", "why_tests_cant": "Ranges over all tables, draws and optimisers.", "anchors": ["src/pylogit/bootstrap_sampler.py:create_cross_sectional_bootstrap_samples", "src/pylogit/bootstrap.py:Boot.generate_bootstrap_replicates", "src/pylogit/bootstrap_calcs.py:calc_percentile_interval"]}
{"id": "C118", "title": "Options given for the MNL estimations of replicates", "statement": "The dictionary of MNL options given to the replicate functions influences the replicates only: every replicate of every call is estimated with these options, and the caller's dictionary is as it was afterwards, so that it can be used in a call of fit_mle as before.", "quantifier": "all models, tables, samples, optimisers and dictionaries; calls that succeed and calls that raise at any replicate", "why_tests_cant": "The dictionary is an object shared by the caller and all replicates; ranges over all histories of calls and all points at which one may raise.", "anchors": ["src/pylogit/bootstrap_mle.py:get_mnl_point_est", "src/pylogit/bootstrap_mle.py:retrieve_point_est", "src/pylogit/bootstrap.py:Boot.generate_bootstrap_replicates", "src/pylogit/bootstrap.py:Boot.generate_jackknife_replicates"]}
{"id": "C119", "title": "Mixed logit with improbable choices and long panels", "statement": "In floating point arithmetic, however improbable the choices, however many a person makes and however many draws are taken, simulated probabilities of choice sequences are positive numbers up to one, the simulated log-likelihood is a finite number and not positive, its gradient consists of finite numbers; a sequence with more improbable choices is not given a higher probability; and the log-likelihood varies with the parameters where its gradient is not zero.", "quantifier": "all tables, choices, weights, numbers of draws and utilities (including infinite ones), any number of choices per person", "why_tests_cant": "Ranges over all magnitudes of utilities and all lengths of panels; underflow only shows at particular magnitudes, with hundreds of choices or utilities far apart.", "anchors": ["src/pylogit/mixed_logit_calcs.py:calc_choice_sequence_probs", "src/pylogit/mixed_logit_calcs.py:calc_mixed_log_likelihood", "src/pylogit/mixed_logit_calcs.py:calc_mixed_logit_gradient", "src/pylogit/mixed_logit_calcs.py:general_calc_probabilities"]}
{"id": "C120", "title": "Which data have multinomial logit estimates", "statement": "A multinomial logit without a ridge penalty has maximum likelihood estimates exactly when no direction of the coefficients predicts the choices (a constant for an alternative that nobody, or everybody who could, chose is such a direction), and they are unique up to directions that move the utilities of every observation alike. A fit with an optimiser that finds global maxima stores the estimates when they exist; and when they do not, the stored gradient says so. The same holds for every bootstrap and jackknife replicate.", "quantifier": "all data sets in long format, specifications, fixed coefficients, bootstrap samples and left out observations", "why_tests_cant": "Existence of a maximum over all coefficient vectors for all data sets; a test only sees where an optimiser stopped for one data set.", "anchors": ["src/pylogit/conditional_logit.py:MNL.fit_mle", "src/pylogit/choice_calcs.py:calc_log_likelihood", "src/pylogit/choice_calcs.py:calc_gradient", "src/pylogit/choice_calcs.py:calc_probabilities", "src/pylogit/base_multinomial_cm_v2.py:MNDC_Model.__init__", "src/pylogit/bootstrap.py:Boot.generate_bootstrap_replicates", "src/pylogit/bootstrap.py:Boot.generate_jackknife_replicates"]}
{"id": "C121", "title": "Fits do not depend on how the optimiser got there", "statement": "Two fits of a multinomial logit model with the same non-negative ridge penalty and the same coefficients held fixed, that both stored their results and stopped where the gradient they stored is zero for the free coefficients and no utility is clipped, leave the same results on the model object: estimates, covariances, standard errors, t- and p-values, fit statistics, probabilities, residuals and summaries, whatever the optimisers, the starting values and the fits before them were. So do fits on two tables that hold the same data in another row order and with renumbered observations, except for the results that list rows or observations.", "quantifier": "all data sets in long format and their reorderings, specifications, optimisers, starting values, penalties, fixed positions and histories of fits", "why_tests_cant": "Optimisers, starting values, histories and data sets range over infinite sets; a test compares a few runs up to a tolerance.", "anchors": ["src/pylogit/conditional_logit.py:MNL.fit_mle", "src/pylogit/estimation.py:estimate", "src/pylogit/base_multinomial_cm_v2.py:MNDC_Model.store_fit_results", "src/pylogit/choice_calcs.py:calc_gradient", "src/pylogit/choice_calcs.py:calc_hessian", "src/pylogit/choice_calcs.py:calc_fisher_info_matrix"]}
{"id": "C122", "title": "The two implementations of ABC endpoints and quadratic coefficients agree", "statement": "bootstrap_abc.py implements the endpoints and the quadratic coefficients of approximate bootstrap confidence intervals twice: once after Efron's R code, which calc_abc_interval uses, and once after equations 22.33 and 22.37 of the textbook. Given the same estimates, influence values and standard errors, both give the same endpoints and, up to the factor of the definition, the same quadratic coefficients.", "quantifier": "all models, weights, influence values, standard errors, percentiles, biases, accelerations and step sizes", "why_tests_cant": "The unit tests give each function its own hand computed inputs; whether two formulas agree is a statement about all inputs.", "anchors": ["src/pylogit/bootstrap_abc.py:calc_endpoint_from_percentile_abc", "src/pylogit/bootstrap_abc.py:efron_endpoint_from_percentile_abc", "src/pylogit/bootstrap_abc.py:calc_quadratic_coef_abc", "src/pylogit/bootstrap_abc.py:efron_quadratic_coef_abc"]}
{"id": "C123", "title": "Computed multinomial logit results are those of exact arithmetic up to rounding errors", "statement": "The probabilities, log-likelihood and gradient that a multinomial logit computes in double precision are the exact ones, up to errors of a stated multiple of the machine precision, however the linear algebra library orders its sums. Two machines therefore report the same log-likelihood up to twice that error.", "quantifier": "all design matrices, coefficients, weights and choices of moderate size, all libraries of elementary functions with errors of at most one unit in the last place, and all orders of summation", "why_tests_cant": "Tests compare a few results with numbers computed by the same machine and library; they cannot cover all tables, summation orders and libraries.", "anchors": ["src/pylogit/choice_calcs.py:calc_probabilities", "src/pylogit/choice_calcs.py:calc_log_likelihood", "src/pylogit/choice_calcs.py:calc_gradient", "src/pylogit/conditional_logit.py:_mnl_utility_transform"]}
{"id": "C124", "title": "A path to a CSV file is as good as a table, and a model built from a file is independent of everything that happens later", "statement": "Where data is asked for, a path that ends in .csv stands for the content of the file at that moment: building a model or predicting gives the result, or raises the exception, that a table with this content gives. Other strings raise ValueError and other objects TypeError, without any effect. The library never changes a file; calls that are given paths never change a table of the caller. What a fit of a model built from a file reads is not changed by any later event.", "quantifier": "all files, tables, arguments and histories of library calls and changes of tables and files", "why_tests_cant": "Tests build a few models from tables; they cannot cover all histories in which files are overwritten and tables changed between the calls.", "anchors": ["src/pylogit/choice_tools.py:get_dataframe_from_data", "src/pylogit/base_multinomial_cm_v2.py:MNDC_Model.__init__", "src/pylogit/base_multinomial_cm_v2.py:MNDC_Model.predict", "src/pylogit/mixed_logit.py:MixedLogit.panel_predict", "src/pylogit/pylogit.py:create_choice_model"]}
{"id": "C125", "title": "More general models never fit worse: likelihood-ratio statistics are not negative", "statement": "If two models of one data set are fitted with the same ridge penalty, the second by an optimiser that reaches its optimum, then the second log-likelihood stored is at least the first, so that the likelihood ratio statistic 2(L'-L) is not negative, if the second model is more general: it has more variables, alternative-specific instead of generic coefficients, or outside intercepts; or it is a scobit, uneven logit, asymmetric logit, nested logit or mixed logit model while the first is a multinomial logit model of the same variables or of fewer of them. Also, no such fit is worse than equal shares, so that rho-squared is not negative; with a ridge penalty it is at most one and the penalty of the estimates is at most the absolute null log-likelihood.", "quantifier": "all tables, specifications, nests, mixing variables, draws, ridge penalties, starting values, histories of fits, and optimisers that reach the optimum of the second problem", "why_tests_cant": "Tests compare a few fits; that one likelihood surface contains another must be shown for all data, all parameter layouts and all numbers of alternatives and coefficients.", "anchors": ["src/pylogit/base_multinomial_cm_v2.py:MNDC_Model._store_generic_inference_results", "src/pylogit/base_multinomial_cm_v2.py:MNDC_Model.store_fit_results", "src/pylogit/clog_log.py", "src/pylogit/scobit.py:_scobit_utility_transform", "src/pylogit/uneven_logit.py:_uneven_utility_transform", "src/pylogit/asym_logit.py:_asym_utility_transform", "src/pylogit/nested_choice_calcs.py:calc_nested_log_likelihood", "src/pylogit/mixed_logit_calcs.py:calc_mixed_log_likelihood"]}
{"id": "C126", "title": "With a positive ridge penalty, estimates always exist and are stored", "statement": "With a positive ridge penalty, and an optimiser that finds minima where they exist, fit_mle of a multinomial logit, scobit, uneven logit, asymmetric logit or mixed logit model raises an exception only if its arguments are out of order (wrong number of starting values, rows that are not grouped by observation, reference positions or fixed positions out of range), whatever the data: separated choices or collinear columns do not matter. Otherwise it gets to its results, and, except that the second derivatives of mixed logit models may be singular, everything is stored.", "quantifier": "all tables with one choice per observation, specifications, arguments, positive penalties, histories of fits and optimisers that find minima where they exist", "why_tests_cant": "Existence of a maximum is a statement about the whole parameter space, for all data, also where the unpenalised likelihood has no maximum.", "anchors": ["src/pylogit/estimation.py:estimate", "src/pylogit/choice_calcs.py:calc_log_likelihood", "src/pylogit/mixed_logit_calcs.py:calc_mixed_log_likelihood", "src/pylogit/base_multinomial_cm_v2.py:MNDC_Model.store_fit_results"]}
{"id": "C127", "title": "Fits, replicates and confidence intervals follow the units of the variables", "statement": "If variables of the table are expressed in other units (multiplied by numbers that are not zero) and a multinomial logit model is built, fitted, bootstrapped and jackknifed as before, then the estimates and all replicates of the coefficients of those variables are divided by the same numbers; the standard errors, covariances and t-values change accordingly; log-likelihoods, fit statistics, fitted probabilities, residuals and p-values do not change; the same observations are drawn; and the endpoints of the percentile and BCa intervals are divided by the numbers too, trading places where the number is negative.", "quantifier": "all tables, specifications, units, seeds, states of the random numbers, starting values, histories of fits, confidence levels, and optimisers that reach the optimum", "why_tests_cant": "A test can change the units of one data set; that nothing in the chain from the table to the endpoints depends on them must be shown for all data, draws and scale factors.", "anchors": ["src/pylogit/conditional_logit.py:MNL.fit_mle", "src/pylogit/bootstrap.py:Boot.generate_bootstrap_replicates", "src/pylogit/bootstrap.py:Boot.generate_jackknife_replicates", "src/pylogit/bootstrap_calcs.py:calc_percentile_interval", "src/pylogit/bootstrap_calcs.py:calc_bca_interval", "src/pylogit/bootstrap_calcs.py:calc_bias_correction_bca"]}
{"id": "C128", "title": "The conversions warn exactly when columns are left out or the result is not what was announced", "statement": "convert_long_to_wide and convert_wide_to_long emit no warning exactly when every column of the table given is used in the table returned and the table returned has the announced shape: one row per observation and one column per variable, availability and listed alternative (wide), or one row per available alternative of each observation (long).", "quantifier": "all tables, choices of columns, subsets of alternatives, availability dictionaries and names", "why_tests_cant": "The functions compare counts, not names or cells. A test can show a warning for one table; that equal counts imply equal sets of columns, and equal numbers of rows imply valid availabilities, must be shown for all tables, and is false for some.", "anchors": ["src/pylogit/choice_tools.py:ensure_all_columns_are_used", "src/pylogit/choice_tools.py:convert_long_to_wide", "src/pylogit/choice_tools.py:convert_wide_to_long"]}
{"id": "C129", "title": "Gradient norms of replicates belong to the model that was built and fitted", "statement": "For a model made by create_choice_model, Boot.calc_gradient_norm_for_replicates computes with the estimator of the model's own type and the model's own table. For the logit-type models it returns, for every replicate at which the utilities are smooth and not clipped, the Euclidean norm of the derivatives of the documented log-likelihood of the table with the penalty given. For each of the seven model types, a replicate that equals the estimates of a fit gets the norm of the gradient that fit reported, and a mixed logit model that has not been fitted is refused.", "quantifier": "all seven model types, tables, specifications, penalties, optimisers, sets of replicates, seeds and numbers of draws", "why_tests_cant": "The estimator is found again through the displayed name of the model, and the draws through an attribute left by the last fit. A test compares one model on one table with stored numbers; that the object made afterwards computes what the fit computed must hold for all models and replicates.", "anchors": ["src/pylogit/construct_estimator.py:create_estimation_obj", "src/pylogit/construct_estimator.py:model_type_to_resources", "src/pylogit/bootstrap.py:Boot.calc_gradient_norm_for_replicates", "src/pylogit/display_names.py:model_type_to_display_name"]}
{"id": "C130", "title": "The order in which variables and nests are listed does not matter", "statement": "Listing the variables of the specification in another order, with the name dictionary following it, and the nests and the alternatives of each nest in another order, changes nothing but the order of the parameters. create_choice_model accepts one listing exactly when it accepts the other. The columns and their names are the same up to order. The fits of all seven model types maximise the same function, each parameter staying with its column or nest; for the mixed logit with the same seed and distinct names. Two fits of the MNL model from any starting values by optimisers that find the maximum report the same log-likelihood, goodness of fit, probabilities and residuals, and the same estimates, standard errors, t- and p-values, Hessian and covariance matrices under the same names. The logit-type models predict the same probabilities for every table, if each coefficient stays with its column.", "quantifier": "all seven model types, tables, specifications and their permutations, nest dictionaries, name dictionaries, parameters, ridge penalties, seeds and optimisers", "why_tests_cant": "Every report finds its entries by position in arrays made from ordered dictionaries, nests are numbered by their place in a dictionary, and mixing variables are found by position of their names. A test fits one specification in one order; that no position is confused in any order must hold for all permutations and tables.", "anchors": ["src/pylogit/choice_tools.py:create_design_matrix", "src/pylogit/base_multinomial_cm_v2.py:MNDC_Model", "src/pylogit/choice_tools.py:create_sparse_mapping", "src/pylogit/nested_logit.py:NestedLogit.fit_mle", "src/pylogit/mixed_logit.py:MixedLogit.fit_mle", "src/pylogit/base_multinomial_cm_v2.py:MNDC_Model.store_fit_results", "src/pylogit/base_multinomial_cm_v2.py:MNDC_Model.predict"]}
{"id": "C131", "title": "The numbers of the alternatives do not matter", "statement": "Giving the alternatives other numbers, in the table, in the specification and in the nests, changes nothing but the order of the parameters. create_choice_model accepts one numbering exactly when it accepts the other, if integers remain integers (for a mixed logit with names given for the columns, because default names contain the numbers). The columns are the same up to order. The fits of all seven model types maximise the same function, if each coefficient stays with its column, each shape and intercept with its alternative and each nest parameter with its nest, whatever the reference alternatives are. If the new numbers are in the order of the old ones, the parameter vectors are the same. Two multinomial logit fits with the same ridge penalty, which is not negative, without fixed parameters and without clipped utilities at the estimates, each with any starting values and any optimiser that finds global maxima, report the same statistics and probabilities, and under the same names the same estimates, standard errors, t-values, p-values, derivatives and covariances. The logit-type models predict the same probabilities for a table whose alternatives are renumbered in the same way.", "quantifier": "all seven model types, tables, specifications, nests, injective renumberings of the alternatives, reference positions, parameters, seeds and penalties", "why_tests_cant": "Alternatives are identified by numbers that are sorted, compared, put in dictionaries and used to find positions of shapes, intercepts and columns. A test uses alternatives 1, 2, 3; that nothing depends on their values must hold for all tables and renumberings.", "anchors": ["src/pylogit/choice_tools.py:create_design_matrix", "src/pylogit/choice_tools.py:create_long_form_mappings", "src/pylogit/base_multinomial_cm_v2.py:MNDC_Model", "src/pylogit/nested_logit.py:NestedLogit.fit_mle", "src/pylogit/mixed_logit.py:MixedLogit.fit_mle"]}
{"id": "C132", "title": "The choice of the reference alternative does not matter", "statement": "Two models of one table that differ only in which alternative has no outside intercept and, in the asymmetric model, which has no shape, describe the same choices. If the parameters of one are those of the other, measured from another alternative, then both have the same log-likelihood, and predict the same probabilities for every new table, as long as no utility reaches the clipping bound of 700. Two fits without ridge penalty whose optimisers find maxima, and whose estimates stay below the clipping bound, report the same log-likelihood and rho-squared; with two alternatives also if both have the same ridge penalty. With a ridge penalty and three alternatives this is not so: the reference alternative can change the reported log-likelihood.", "quantifier": "MNL, Asym, Cloglog, Scobit and Uneven models, all tables, specifications, pairs of reference positions, parameters, new tables, optimisers that find maxima, and starting points", "why_tests_cant": "A test fits one data set with one reference alternative. That the positions of intercepts and shapes are filled in consistently must hold for every number of alternatives and every pair of positions.", "anchors": ["src/pylogit/choice_calcs.py:calc_probabilities", "src/pylogit/uneven_logit.py:_uneven_utility_transform", "src/pylogit/scobit.py:_scobit_utility_transform", "src/pylogit/clog_log.py:_cloglog_utility_transform", "src/pylogit/asym_logit.py:_asym_utility_transform", "src/pylogit/asym_logit.py:_convert_eta_to_c", "src/pylogit/base_multinomial_cm_v2.py:MNDC_Model.predict"]}
{"id": "C133", "title": "Which alternative's constant is left out of a multinomial logit does not matter", "statement": "In a multinomial logit model, let a variable have the same value in all rows of an observation, such as the intercept or an attribute of the decision maker, and let the specification give it a coefficient for each alternative but one. If another alternative is left out instead, and its coefficient is subtracted from all of them, the log-likelihood is the same, and so are the predicted probabilities for every new table, as long as no utility reaches the clipping bound of 700. Two fits without ridge penalty that differ in the alternative left out and in the order of the others report the same log-likelihood and rho-squared, if their optimisers find maxima and no utility is clipped; with two alternatives also if both have the same ridge penalty.", "quantifier": "all tables, specifications, variables constant within observations, pairs of left out alternatives, orders of the others, coefficients, new tables, optimisers that find maxima, and starting points", "why_tests_cant": "A test fits one data set with one alternative left out. That the columns of the groups, their coefficients and the automatic intercept column combine to the same probabilities must hold for all tables and all choices of the alternative.", "anchors": ["src/pylogit/choice_tools.py:create_design_matrix", "src/pylogit/choice_calcs.py:calc_probabilities", "src/pylogit/conditional_logit.py:MNL", "src/pylogit/base_multinomial_cm_v2.py:MNDC_Model.predict"]}
{"id": "C134", "title": "Variables that cannot matter to the choice", "statement": "Let a variable of a multinomial logit have the same value in all rows of each observation. If it has one coefficient for all alternatives, or a coefficient for each alternative with none left out, then in exact arithmetic fit_mle without a ridge penalty raises an exception and stores no results, whatever the optimiser returns. With a positive ridge penalty and an optimiser that finds maxima, the estimate of the one coefficient is zero, and the estimates of the coefficients of all alternatives add up to zero, if no utility is clipped.", "quantifier": "all tables, specifications with such a variable at any place, optimisers, starting points and earlier fits", "why_tests_cant": "A test tries one redundant specification. That the missing identification is always noticed must hold for all tables, optimisers and starting points.", "anchors": ["src/pylogit/choice_tools.py:create_design_matrix", "src/pylogit/conditional_logit.py:MNL.fit_mle", "src/pylogit/choice_calcs.py:calc_hessian", "src/pylogit/base_multinomial_cm_v2.py:MNDC_Model.store_fit_results"]}
