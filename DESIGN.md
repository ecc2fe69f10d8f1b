# Formal model of pylogit in Lean 4: design

## 1. What is being verified

`/repo` is the pure-Python package `pylogit` (discrete choice models: MNL,
asymmetric, scobit, uneven, clog-log, nested and mixed logit, plus bootstrap
inference).  The model is a shallow embedding: each Python function becomes a
Lean function that mirrors it branch by branch, exceptions become
`Except Err _`, loops become list recursion or finite sums.  Nothing in `/repo`
is executed.

## 2. Representation choices

* **Floating point numbers are modelled as exact reals** (`Real`), except in
  C94-C96, C100 and C119, which model probabilities, log-likelihood and transformations on
  floating point values (`Fl`: finite numbers of a format, the infinities, NaN)
  with every guard of the code.  The format (`FloatFormat`) and the elementary
  functions (`MathLib`) are parameters with a few laws; `binary64` (IEEE 754,
  rounding to nearest even) and `roundedLib` are shown to satisfy them.  Guards that
  only react to `inf`, `nan` or underflow are reproduced when they can fire over
  the reals (clipping of exponents at +-700, replacement of exact zeros by
  1e-300, `log 0 -> -1e300`), and are noted as unreachable otherwise.
* **Arrays** are functions on finite index types (`R -> Real`,
  `Matrix R O Real`), so sizes are unbounded.  Sparse and dense matrices are the
  same mathematical object.
* **Tables** (pandas frames) are `Frame V`: a list of column names, a number of
  rows and a value per (row, column name).  Cells are elements of a type `V`,
  generic where possible, `Real` (or `Rat`/`Int` in examples) where the code
  does arithmetic.  Reading an absent column is an explicit `keyError`.
* **Dynamic Python values** (specification dictionaries, user arguments) are
  `PyVal`/`PyRef`, so the type checks of the code have something to reject.
  Dictionaries are association lists in insertion order.
* **NaN** in stored results is `none : Option Real`.
* **Optional parameter groups** (`None` shape or intercept parameters) are
  modelled by the four branches of the code.
* **External code** is a parameter: scipy's `minimize` (any function from an
  objective to a result), the random generator (any function), the normal
  distribution (a strictly increasing symmetric cdf with its inverse, or
  Mathlib's Gaussian), `scipy.linalg.inv` (Mathlib's matrix inverse, used only
  where the determinant is a unit).

## 3. Layout

* `Verif/Model/*.lean`: definitions only, each with a file/line citation.
* `Verif/Spec/*.lean`: small independent specifications (what the English says).
* `Verif/Lemmas/*.lean`: helper lemmas.
* `Verif/Props/*.lean`: property theorems, with non-vacuity examples.

## 4. Plan per property

| id | modelled | how it is proved |
|----|----------|------------------|
| C01 | `get_original_order_unique_ids` with `np.unique(return_index)` and `np.sort` on indices | equality with the recursive "keep first occurrence" spec, by induction |
| C02 | `create_sparse_mapping`, `create_long_form_mappings` | entrywise characterisation from the dictionary semantics |
| C03 | `chosen_row_to_obs` | entrywise |
| C04 | alt -> nest dictionary (last wins), nest ids | lookup lemma by induction on the nest spec |
| C05 | `create_design_matrix` column loop | equality with an entrywise spec |
| C06 | default and user names | length by induction; positional statement for default names |
| C07 | same | positive theorem when key orders agree, witness when they do not |
| C08 | spec checks over an untyped Python value type | iff with a declarative predicate |
| C09 | five nest checks | iff with "partition" predicate |
| C10 | difference check | soundness by sortedness; completeness fails, witness |
| C11-C12 | `convert_wide_to_long` | rows characterised for sorted availability dictionaries with 0/1 values; for 0/1 values, exactly which orders give the documented rows and one choice per observation; witness otherwise |
| C13-C14 | `convert_long_to_wide` | per-observation characterisation when chosen rows follow observation order; witnesses otherwise |
| C15 | both | composition |
| C16-C20 | `calc_probabilities` | finite sums over fibres of a one-hot mapping |
| C21 | probabilities, LL, gradient, Hessian | reindexing by equivalences |
| C22 | `calc_log_likelihood` | algebra and log bounds |
| C23 | `calc_gradient` in its four branches | `HasDerivAt` chain rule over all parameters |
| C24-C25 | `calc_hessian`, `quadratic_prod_wrt_dp_ds` | derivative of the gradient for identity transform; for the four other models the missing term, and a data set where it is not zero |
| C26 | `calc_hessian` | within-observation variance is non-negative |
| C27 | LL as a function of coefficients | concavity from log-sum-exp convexity |
| C28-C29 | Fisher matrix, sandwich | Gram matrix argument; witness with ridge |
| C30 | weights | sums over duplicated row types |
| C31-C35 | five transforms and derivative functions | `HasDerivAt`, monotonicity, limits |
| C36-C42 | `nested_choice_calcs`, `nested_logit` | sums over (observation, nest) fibres, derivative proof; witnesses for empty nests and ridge |
| C43-C47 | `mixed_logit_calcs`, `panel_predict` | finite sums/products; witness for reordered individuals |
| C48-C51 | parameter splitting, storing, constraints | list lemmas; optimiser steps as an abstract iteration |
| C52-C54 | statistics | algebra |
| C55 | `fit_mle` of every class, with optimiser as a parameter | independence from the weights argument (negation of the property) |
| C56-C58 | validation and factory | iff with declarative predicates |
| C59-C61 | bootstrap sampling, jackknife | list induction for every random outcome |
| C62-C65 | intervals | order statistics lemmas |
| C66-C69 | parameter lists, initial values, predict, names | list lemmas |
| C70 | nested probabilities through the public entry point | sums over fibres |
| C71-C72 | ABC interval code, influence values by finite differences | algebra; degeneracy because `fit_mle` drops weights |
| C73 | `get_model_creation_kwargs`, `retrieve_point_est`, both replicate loops | list induction over the samples, for every fitting procedure |
| C74 | `calc_log_likes_for_replicates` with numpy's broadcasting and in-place addition rules | columns evaluated one at a time; witnesses where the shapes do not fit |
| C77-C78 | the `Boot` object: every method as a step with an outcome | induction over the history of calls: a stored table is the latest one computed |
| C79 | `create_estimation_obj`, `calc_gradient_norm_for_replicates` | uniqueness of derivatives; concavity for the MNL model; witness with constrained parameters |
| C80 | ABC interval code, for a fit that is a quadratic function of the observation weights | exactness of finite differences on quadratics; algebra |
| C81 | checks of `EstimationObj.__init__` | case analysis on the three checks; lower bound of clipped probabilities |
| C82 | the estimators of all seven models, each with the formulas of its documentation as specification | gradient theorems of C23, C38, C45 and covariance form of C25, lifted through constraint masking |
| C83 | a heap of sparse and dense matrices; `set_derivatives`, the derivative callables and the evaluations as state transformers on it | heap invariant, induction on the history |
| C84 | score matrices and BHHH matrices | gradient theorems with weight one on a single observation |
| C85 | `estimate` at the zero vector | constant utilities give equal shares; explicit value for the nested logit |
| C86 | `estimate` with an arbitrary optimiser | C82 at the returned point |
| C87 | `create_choice_model` and the constructors, all checks | characterisation of each check, then of their sequence, by cases on the class |
| C88 | log-likelihoods of the estimators with a positive ridge | continuity and coercivity give a maximiser on the closed set of vectors with the constrained coordinates fixed; MNL uniqueness by the tangent inequality; nested logit and clog-log refuted by witnesses |
| C89 | `MNLEstimator` log-likelihood | strict concavity along directions that are not constant within observations; shift invariance for the converse |
| C90 | `store_fit_results` as a sequence of assignments to the attributes of a model object, kept when a later one raises; histories of `fit_mle` calls | explicit final state of a successful run; the names are the only state a run depends on, and they are stable |
| C91 | the same | exact description of the attributes after a failing run; refuted by a witness of two fits |
| C92 | estimators of all seven models on recoded design matrices | matrix algebra: every quantity depends on the design only through its product with the coefficients and the chain rule; inverse of a congruence for the covariances |
| C93 | `predict` on two tables, one inside the other | every step (checks, design columns, mappings, transformation, logit) commutes with the embedding of rows; sums over the rows of an observation are the same by bijection; counterexample with a further alternative |
| C94 | probabilities, log-likelihood and transformations on floating point values | interval reasoning through every operation: rounding is monotone and fixes numbers of the format; case analysis on infinities and NaN; the arithmetic itself is compared with the extended real numbers (FloatArith) |
| C95 | the same, with an accuracy law for rounding | standard error analysis of sums by induction on the rows; witnesses for overflow and underflow in binary64 |
| C96 | the same, with a monotone exponential | monotonicity of rounding, sums and quotients; witnesses in binary64 for the transformations |
| C97 | NumPy's global generator as a state with arbitrary functions (`Rng`), threaded through draws, prediction and sampling | induction over the loops that draw; the results are those of the model with arbitrary draws, whose theorems then apply |
| C98 | no new model: the gradient and the probabilities of C16-C22 | the score of a column of indicators is a difference of shares; maxima by Fermat's rule and the derivative theorems |
| C99 | no new model: the probabilities on a table and on some of its rows | sums over fibres; for the nested logit the textbook formula of C36 |
| C100 | `calc_nested_probs` and `naturalize_nest_coefs` on floating point values, with their guards | interval reasoning for signs; relative errors of sums, powers, products and quotients for utilities within 600 times the coefficient of the nest; witnesses in binary64 outside |
| C101 | the caller's tables as mutable objects: constructors and predictions that change them in place, models that refer to them, changes by the caller, and what a fit reads from the model and from the table | induction over histories of events; exact description of the change; witness for rows sorted between construction and fit |
| C102-C103 | `print_summaries` and `get_statsmodels_summary` as readers of the attributes that `store_fit_results` writes one after the other | induction over histories of fits, on top of C90; witness with a singular Hessian |
| C104-C105 | `to_pickle` as operations on a disk (empty the file, add bytes piece by piece) that can stop anywhere; `pickle` enters as a hypothesis (what was dumped loads, a strict beginning does not), with an instance | induction over pieces and over histories of saves; negation of C105 for every object |
| C106 | the probabilities an estimation object computes at the end of a fit (`convenience_calc_probs`), the attributes `predict` reads its parameters from | the design matrix and mappings `predict` builds again equal those of the model; on top of the history theorem of C90; for the mixed logit with the generator of C97 |
| C107 | the column names and cells of the table `convert_wide_to_long` returns (`Model/LongTable.lean`) and the log-likelihood of the nested logit's estimation object (`Model/NestedFit.lean`) and the mixed logit's (`Model/MixedFit.lean`), on top of the conversion, construction and estimation models | the rows of each observation are reindexed by its available alternatives; the log-likelihood of the wide table is written from its columns alone (`Spec/WideFit.lean`, `Spec/MixedFit.lean`); the people of the mixed logit are those of the wide table because every observation keeps at least one row |
| C108 | as C107 for long tables | both fits equal the log-likelihood of their table (C107), which is written from the columns and reindexed along the permutation of the rows; `Spec/Reorder.lean` says when two tables hold the same data |
| C109 | `Model/WholeFit.lean`, `Model/WholeFitTypes.lean`: `fit_mle` of the five logit-type models from its arguments to the results, with the optimiser a parameter | `describes_of` says what an estimation object has to satisfy, `run_reports` derives every attribute from it, and the C22-C30, C82, C101, C106 and C107 theorems supply the pieces; `Spec/WholeFit.lean` writes the statistics from the columns of the table, `Spec/WholeFitTypes.lean` the parameter vector with shapes and outside intercepts |
| C110 | `Model/WholeFitNested.lean`: `fit_mle` of the nested logit from its arguments to the results | partial: the report holds except for the null log-likelihood (`nested_fit_null_not_equal_shares`), an excess of the gradient and the scores at nest parameters (C38, C39, C84; stated exactly in `Spec/WholeFitNested.lean`), and robust inference, which is always NaN because the Fisher information is a placeholder (`nested_robust_nan`; the comment at nested_logit.py:321-337 expects a value) |
| C111 | `Model/WholeFitMixed.lean`: `fit_mle` and `predict` of the mixed logit from their arguments and the state of the generator | partial: the report holds except that the ridge penalty enters the matrix in place of the Hessian with the wrong sign (mixed_logit_calcs.py, C41), so that with a penalty all standard errors can be NaN (`mixed_ridge_nan`), that robust inference is NaN because the Fisher information is a placeholder (`mixed_robust_nan`), and that the stored chi-square is a sum over the draws, too (`DrawProbabilities`). A model whose names contain "Sigma " cannot store a fit (`mixed_fit_stores`). |
| C112 | `Model/WholeFitMixed.lean`: `predict` of the mixed logit on any table | partial: what is returned, and when, is characterised (`mixed_predict_iff`); the code disagrees twice: an unfitted model cannot predict with a `param_list` (`mixed_predict_unfitted`), and with the same seed the prediction for a person depends on who else is in the table (`mixed_predict_depends_on_others`; it does not if the people are the same, `mixed_predict_local_partial`) |
| C113 | `Model/WholeBoot.lean`: sampler, tables of replicates and `fit_mle(..., just_point=True)` put together | proved: every replicate comes from an optimisation of the log-likelihood of the sample, stated on the original table (`bootstrap_replicates_maximise`, `jackknife_replicates_maximise`); a table of copies of observations contributes the parts of the observations copied; a sample that lacks an alternative either has the same utilities or another number of parameters, and then the fit fails; `mnl_bootstrap_succeeds`, `mnl_jackknife_succeeds` for when none fails |
| C114 | `pointNested`, `decodeNest` of `Model/WholeBoot.lean`: `NestedLogit.fit_mle(..., just_point=True)` on the tables of replicates | partial: every replicate comes from an optimisation of the nested log-likelihood of the sample, stated on the original table (`nested_bootstrap_maximises_partial`, `nested_jackknife_maximises_partial`); missing because false of the code (C38, C39): the derivatives at nest parameters are only right without ridge and when every drawn observation has a row in every nest. `nested_bootstrap_succeeds`, `nested_jackknife_succeeds` for when no replicate fails |
| C115 | nothing new in the model: `predictMixedFrame` and `fitMixedLogLik` with the generator in a random state (`StandardNormalStream` of `Spec/Simulation.lean` says that the draws are independent and standard normal; Mathlib's `gaussianReal`, `iIndepFun`) | proved: `mixed_predict_simulation`, `mixed_loglik_simulation`, `mixed_clipping_error`; by Chebyshev's and Jensen's inequality, probabilities being bounded away from 0 by the bound on utilities. The assumption on the generator is met by `tapeRng` (`tape_standard`); that numpy's generator meets it is not claimed |
| C116 | nothing new in the model: `samplesRng` and `bootstrapRun` with the generator in a random state (`UniformPicks` of `Spec/Resampling.lean` says that choices are uniform and independent) | proved: `bootstrap_sample_moments`, `bootstrap_expected_count`, `bootstrap_objectives_unbiased`, `stratified_variance_le`. The assumption on the generator is met by `tapeChooser` (`tape_uniform`); that numpy's generator meets it is not claimed |
| C117 | as C113 | proved: `bootstrap_choice_statistics`, `bootstrap_shares_do_not_vary`, `same_replicates_interval`. A consequence of the stratified resampling users should know: intervals of constants-only models have width zero |
| C118 | `Model/SharedKwargs.lean`: the replicate functions with the caller's dictionary as a mutable object | partial: all replicates of all calls get the same options (`shared_kwargs_replicates`, `replicates_again`), but the caller's dictionary is changed (`jackknife_changes_kwargs`, `bootstrap_changes_kwargs`), and a fit with it afterwards stores nothing (`reused_kwargs_store_nothing`) |
| C119 | `Model/FloatMixed.lean`: simulated probabilities of sequences, log-likelihood and gradient on floating point numbers | partial: probabilities are positive and at most one, log-likelihood and gradient finite (`float_sequence_valid`, `float_mixed_log_likelihood`, `float_mixed_gradient`), by ranges of sums and the grid of subnormal numbers; but sequences that underflow are all given 1e-300, so their order and any dependence on the parameters are lost (`float_sequence_order_reversed`, `float_long_panel`, `float_panel_forgets`, `float_panel_gradient`) |
| C120 | the multinomial logit of the whole-fit and resampling models, against the textbook log-likelihood without clipping (`Spec/Separation.lean`) | partial: existence exactly without a separating direction, uniqueness, and stationary points are estimates (`logit_estimate_exists_iff`, `logit_estimate_unique`, `stationary_iff_estimate`), by convexity of log-sum-exp and compactness; without an estimate every global maximum clips a utility and the stored gradient is not zero (`mnl_fit_separated`, `mnl_fit_never_chosen`, `jackknife_separated`, `bootstrap_separated`); what the library maximises always has a maximum (`mnl_attained`), because the image of a subspace under clipping is closed.  But with an estimate the global maximum can still be elsewhere (`clipping_beats_estimate`) |
| C121 | the whole fit and its history (`Model/WholeFit.lean`, `Model/FitStore.lean`), two fits side by side (`Spec/FitUnique.lean`) | `mnl_fits_agree`, `mnl_global_fits_agree`, `mnl_fits_agree_reordered`: a penalised log-likelihood that stored (so that the Hessian is regular) has one unclipped stationary point (`stationary_unique`); everything stored is a function of the point, and the derivatives are unique |
| C122 | both versions of the endpoints and coefficients (`Model/BootstrapAbc.lean`) | partial: the endpoints agree after scaling the standard errors by n^2 (`abc_endpoint_scaled`), and the coefficients agree up to a factor and the step size for fits that only use the proportions of the weights (`abc_quadratic_scaled`). Given the same standard errors the endpoints differ by a factor n^2 (`abc_endpoints_differ`), and for estimates linear in the weights the coefficient diverges (`abc_quadratic_linear`) |
| C123 | utilities, probabilities, log-likelihood and gradient of the multinomial logit on binary64 numbers (`Model/FloatMnl.lean`), where products of dense arrays are relations that allow every order of addition; elementary functions with errors of at most one unit in the last place (`Spec/FloatMnl.lean`) | partial: forward error bounds against the exact values, for utilities whose terms add up to at most 300 (`float_mnl_probs`, `float_mnl_loglik`, `float_mnl_gradient`, `float_mnl_reproducible`), by induction over the order of addition and a calculus of ratios between computed and exact numbers; the exact values are those of the model on real numbers (`model_mnl_exact`).  False for large utilities (`float_probs_inaccurate`) |
| C124 | sessions with files: the argument `data` is a path, a table of the caller or another object (`Model/Files.lean`); `pd.read_csv` is a parameter; what a path stands for is the relation `Denotes` | `create_from_data`, `file_as_good_as_table`, `predict_from_data`, `library_keeps_files`, `paths_leave_tables`, `failed_data_changes_nothing`, `create_adds_model`; `file_model_is_independent` by the invariant that the caller has no name for the table of such a model |
| C125 | pairs of whole fits (C82, C87, C95); `HoldsResultsOf`, `FitsAtLeastAsWell`, `RhoAtLeast` in `Spec/LikelihoodRatio.lean` | for every parameter vector of the smaller model one of the larger with the same probabilities and at most the same penalty (zero padding, equal coefficients per alternative, shapes where the transformation is the identity), or a sequence whose probabilities tend to them (nest coefficients tending to one); the stored values are those of the optimum |
| C126 | the same fits with a positive penalty | the penalised log-likelihood is continuous and tends to minus infinity, so it has a maximum (`penalised_fit_accepts`, `penalised_mixed_fit_accepts`); the nested logit model is excluded, as its penalty is bounded in the nest parameters |
| C127 | pairs of whole fits (C82), bootstraps and jackknives (C113) of a table and of `inUnits` of it; `Spec/BootUnits.lean` | at estimates where no utility is clipped the log-likelihoods are the same function of the utilities, and an identified logit has one maximum (`fit_units`, `bootstrap_units`, `jackknife_units`); order statistics commute with monotone maps, and bias correction and acceleration change sign at most (`percentile_interval_increasing`, `bca_interval_reflected`); with a ridge penalty the two zero gradients contradict each other unless the estimate is zero (`fit_units_ridge`) |
| C128 | calls of the conversions with the warnings they emit (`Model/ConversionWarnings.lean`), on top of the conversions of C11-C14 | counts of distinct names are cardinalities of finite sets, and a subset with the cardinality of the whole is the whole; sums of cells that are 0 or at least 1 equal the number of non-zero ones iff all are 0 or 1 (`long_to_wide_silent_iff_partial`, `wide_to_long_silent_iff_partial`) |
| C129 | `create_estimation_obj` with its dictionaries of names and estimators, and `calc_gradient_norm_for_replicates` from the model object on (`Model/GradientNorms.lean`), without weights (C79 has them) | the displayed name of a constructed model is that of its class, so the look-ups give the object `fit_mle` made; the derivatives of this object are those of C109 (`gradient_norms_of_table`), and the gradient it reports does not depend on the positions held fixed (`gradient_norm_of_logit_fit`, `gradient_norm_of_nested_fit`, `gradient_norm_of_mixed_fit`) |
| C130 | nothing new: construction, the objectives of the seven `fit_mle` and the stored results | two permuted specifications give permuted columns (`relisted`), every objective is an expression in the sum of columns times coefficients, and nests enter by their members (C93) and mixing variables by their names; the report of the MNL fit follows from the uniqueness of the maximum (C111) and from what each stored attribute is (C109, C112). Missing for the whole report: the six other classes, whose maximum need not be unique, and constrained positions |
| C131 | nothing new | the described columns of the renumbered table are the renumbered descriptions (`columns_map`), with the same values (`value_renumbered`); the objectives of C107 and C130 depend on numbers only through them, through the parameters of each alternative and through membership of nests. Construction: each requirement of C87 is invariant. Reports of the multinomial logit: the proof of C130, with the two tables' reports compared column by column (`report_congr`). Predictions: C68's formula for the predicted probabilities, for the renumbered table. Not claimed: specifications that use the column of numbers itself as a variable |
| C132 | nothing new | a shift of all utilities of a model leaves its probabilities unchanged as long as no utility is clipped (`utility_from`, `probs_from`), and the parameters measured from another alternative are a shift; fits by `LR.better` in both directions. With two alternatives the one free parameter changes its sign, so the ridge penalty is the same. With three alternatives and ridge penalty 1 a witness shows that the reference alternative matters (`reference_alternative_matters_with_ridge`) |
| C133 | nothing new | the columns of the variable add up to its value times the coefficient of the row's alternative (`part_left`); moving the left out alternative subtracts a multiple of the variable, which is constant within observations (`index_moved`, `shifted_by`); fits by `LR.better` in both directions. Specifications with a coefficient for every alternative are not covered: their fits without a ridge penalty do not get to results (C109) |
| C134 | nothing new | such coefficients move the utilities of every observation alike, so the columns are not identified (`not_identified`) and by C109 nothing is stored; with a ridge penalty, setting the coefficient to zero, or subtracting their mean from the coefficients of all alternatives, keeps the log-likelihood and lowers the penalty. Real numbers: with rounding errors the Hessian may be inverted although it is singular |
| C75-C76 | `predict` of every class; the checks of `param_list` on any object | case analysis on the optional arguments, on the kinds of objects and their shapes |

## 5. Trusted base

* Lean's kernel (every constant of the build is replayed by it).
* The axioms `propext`, `Classical.choice`, `Quot.sound`, nothing else.  The
  axioms of each theorem named in `MANIFEST.json` are listed in `AXIOMS.md`.
* The faithfulness of the hand-written model to the lines it cites.  Lines are
  those of `/repo/src/pylogit/<file>`.
* What a theorem means depends on `Verif/Spec/*.lean` as well as on the model.

### 5.1 Modelled, by file of `/repo/src/pylogit`

| file | modelled | not modelled |
|------|----------|--------------|
| `choice_tools.py` | id ordering, all mapping matrices, specification and name checks, design matrix, wide/long conversion with its checks and warnings | the CSV format (`pd.read_csv` is a parameter in C124), type guards on strings/arrays (`ensure_object_is_*`) |
| `choice_calcs.py` | everything | `inf`/`nan` guards, sparse storage |
| `conditional_logit.py`, `asym_logit.py`, `scobit.py`, `uneven_logit.py`, `clog_log.py` | transforms, derivatives, parameter splitting, initial value checks, `fit_mle` flow | progress printing, timing |
| `nested_choice_calcs.py`, `nested_logit.py` | everything except printing | `inf`/`nan` guards |
| `mixed_logit_calcs.py`, `mixed_logit.py` | everything except printing; the random draws are a parameter, and in C97 come from a generator with seeds | NumPy's generator itself (`Rng` is arbitrary) |
| `estimation.py` | objectives, gradients, Hessians, constraint masking, result dictionary; the optimiser is a parameter | scipy's algorithms (BFGS and Newton steps are explicit only in C51) |
| `base_multinomial_cm_v2.py` | constructor checks, storing of results, fit statistics, robust and ordinary inference, `predict` checks | statsmodels summary table, the pickle format (what is saved is modelled in `Model/Saving.lean`), printing |
| `pylogit.py`, `display_names.py` | the factory | deprecation warnings |
| `bootstrap_sampler.py`, `bootstrap_calcs.py`, `bootstrap_utils.py`, `bootstrap_mle.py` | everything; random choices are parameters | progress bars |
| `bootstrap_abc.py` | every function | the type checks of the arguments |
| `bootstrap.py` | replicates, log-likelihoods and gradient norms of replicates, interval tables, histories of calls | printing; the format of percentages is a parameter |
| `construct_estimator.py` | everything (C79 with weights for a given class, C129 with the choice of the class) | |

Floating point rounding, overflow, infinities and NaN are modelled only in
`Verif/Model/Float.lean` (C94-C96: `calc_probabilities` from transformed
utilities on, `calc_log_likelihood` and the four utility transformations),
`Verif/Model/FloatNested.lean` (C100: `calc_nested_probs`),
`Verif/Model/FloatMixed.lean` (C119: choice sequence probabilities, simulated
log-likelihood and its gradient) and `Verif/Model/FloatMnl.lean` (C123: the
multinomial logit with its gradient, for every order of the sums).  The
two zeros of IEEE 754 are one there, sums are taken in row order (except in
C123), and the laws
of `MathLib` (weak bounds on `exp`, `log`, `log1p` and `power`) are assumptions
about NumPy's functions.  Everywhere else numbers are exact reals.

Also not modelled anywhere: the internals of pandas, numpy and scipy, running
time and memory.  Functions without a definition of their own: the placeholders
that only raise `NotImplementedError` or return `None` (`MNDC_Model.fit_mle`,
the `convenience_*` methods of `EstimationObj`, the `*_transform_deriv_*` of
absent parameters), which are overridden or not called;
`ensure_all_alternatives_are_chosen`, whose only call is commented out (C120
has the consequence); `is_kernel`; and small checks and stackings that are part
of the definition of their only caller (`check_argument_type`,
`ensure_alt_id_in_long_form`, `check_for_choice_col_based_on_return_long_probs`,
`_check_result_dict_for_needed_keys`, `_store_inferential_results`,
`combine_conf_endpoints`).

## 6. Where the code and the property disagree

Each line is proved as a theorem with a concrete witness (theorem names in
`MANIFEST.json`); the positive part is a theorem with suffix `_partial` or with
the needed hypothesis.

* C07: a names dictionary whose key order differs from the specification's
  labels columns with the wrong names; no error is raised.
* C10: contiguous observations with descending ids are rejected.
* C11, C12: `convert_wide_to_long` relies on the availability dictionary listing
  alternatives in ascending order of id; in another order choices and
  alternatives are mixed up.  Availability cells other than 0/1 scale the ids.
* C13: `convert_long_to_wide` swaps the choices of observations whose chosen rows
  are not in the order of the observations.
* C14: two choices in one observation and none in another are accepted.
* C23, C31: the clog-log derivative is not the derivative of the transform above
  utility 3.7 (it is within a small stated error), and the asymmetric transform
  has no derivative at utility 0.
* C25: for transforms that are not linear the Hessian misses the term with
  the second derivative of the transform.
* C26: with weights that differ between the rows of one observation the Hessian
  is not symmetric (C26 is stated for weights per observation).
* C28: the Fisher matrix subtracts the ridge penalty, so it need not be positive
  semidefinite.
* C38: the nested gradient is wrong when some observation has no alternative in
  some nest; the exact error is proved.
* C39: with ridge the nest components of the nested gradient are not the
  derivative of the penalised log-likelihood.
* C41: the mixed logit BHHH matrix adds the ridge term with the wrong sign.
* C47: `panel_predict` pairs individuals with draws by position.
* C50: an index variable whose name contains "Sigma " stops the mixed logit from
  storing its standard deviation names.
* C51: Newton steps on the MNL model move constrained parameters; NaN reporting
  goes by name and hits every parameter with that name.
* C55: `fit_mle` drops its weights argument.
* C57: without intercept names the reference position is not checked at all.
* C66: bootstrap parameter lists are refused for shape models without names.
* C67: MNL estimates are put in slots by position.
* C68: `predict` applies alternative-specific parameters by position.
* C72: because of C55 every ABC interval is a single point.
* C73: options other than the starting values are ignored for MNL replicates;
  replicates of a mixed logit model always fail (`num_draws` is never passed).
* C77: new replicates do not invalidate stored intervals (`stale_percentile`).
* C78: the default call of `calc_conf_intervals` (all kinds, `init_vals=None`)
  always fails, after storing the percentile and BCa tables.
* C79: `constrained_pos` has no effect on gradient norms.
* C74: Scobit without outside intercepts raises ValueError or repeats the number
  per row; single replicates with intercepts, or of the asymmetric model, raise
  ValueError or, with two alternatives, give one number per row of data; panel
  data of a mixed logit gives numbers that are not simulated log-likelihoods.
* C75: nested `predict` omits the chosen probabilities; mixed `predict` raises
  AttributeError.
* C81: a negative ridge is accepted; no maximum exists then.
* C82, C84: inherit C38, C39 and C41.
* C91: `store_fit_results` assigns attributes one by one. When it raises (a
  singular Hessian, labels that do not match), the model object reports the
  log-likelihood, probabilities and rho-squares of the failed fit next to the
  parameters, standard errors, summary, AIC and BIC of the fit before
  (`fits_mixture`). `ridge_param` is overwritten even by calls that store nothing.
* C54 / mixed logit: `chi_square` adds the individual chi-squares of all draws
  instead of averaging them, so that it grows with the number of draws
  (`chi_square_grows_with_draws`).
* C88: with any ridge the nested log-likelihood may have no maximum, because the
  penalty acts on the natural nest coefficients.
* C88: the clog-log transformation jumps at an index of 3.7 (above it the code replaces log(exp(exp(v)) - 1) by
  exp(v)).  With two coefficients held at their starting values, `clog_ridge_not_attained` gives three
  observations whose penalised log-likelihood approaches its supremum from the left of the jump and never
  attains it, however large the ridge.
* C93: `predict` reads the alternatives off the prediction table. A further observation with another
  alternative can silently change the probabilities of the others (`predict_depends_on_others`), or make
  `predict` fail (C68).
* C110: the robust covariance of a nested logit is minus the square of the inverse Hessian, because
  `convenience_calc_fisher_approx` is minus the identity, so robust standard errors, t- and p-values are NaN after
  every fit (`nested_robust_nan`).  The null log-likelihood is at nest coefficients of one half.
* C95: the exponentials are clipped at e^700 each but summed without a guard.  65536 alternatives with utilities of
  700 overflow the denominator, and every probability is reported as 1e-300 (`float_probs_overflow`).
* C95/C19: `chosen_probs` has no guard against underflow while `long_probs` has one; the same alternative can be
  reported with probability 0 and 1e-300 (`float_chosen_underflow`).
* C96: the scobit transformation computes log((1 + exp(-v))^c - 1) literally.  From v = 38 on, 1 + exp(-v) is 1 in
  binary64, so every such utility is transformed to 1e300 (`float_scobit_jump`); the branch for overflow of the
  power, scobit.py:200-203, is dead because infinities were replaced four lines before, so that -720 is
  transformed to more than -700 (`float_scobit_not_monotone`).  Likewise clog-log for utilities below -38
  (`float_clog_jump`).
* C94: the uneven transformation of an infinite utility is NaN when exp(shape) underflows to zero
  (`float_uneven_nan_iff`).
* C100: `calc_nested_probs` guards against infinities and zeros one operation at a time, which is not enough.
  Eight alternatives of a nest with coefficient 1 and utility 709 get probabilities above four millions
  (`float_nested_overflow`); a nest with coefficient 1/32 and a single alternative of utility -23 gets a probability
  above 2^899 because the power of a subnormal sum overflows (`float_nested_power_overflow`); an exponential that
  underflows is replaced by 1e-300, which is far more than exponentials that do not, so that utility -746 beats -744
  (`float_nested_order_reversed`).
* C101: a model keeps its design matrix and choices but refers to the caller's table, and `fit_mle` takes the
  observations, alternatives and nests from the table as it is at that moment.  If the caller changes those columns or
  sorts the rows in place in between, the fit mixes old and new data.  For an MNL model another order of the rows is
  harmless or refused (`mnl_fit_ignores_row_order`); for a clog-log model with outside intercepts it silently
  credits choices to other alternatives (`fit_after_sort_reads_mixture`).  Constructors and predictions also change
  the caller's table, even when they fail.
* C103: the statsmodels summary reads `rho_squared`, `rho_bar_squared` and `null_log_likelihood` where they were first
  stored and `llf`, `aic`, `bic` and the counts where they were stored last.  After a fit that raised while its results
  were stored it shows the former from that fit and the latter from the fit before (`statsmodels_mixture`); after a
  failed first fit it raises `AttributeError` instead of `NotImplementedError` (`statsmodels_unfitted`).
* C105: `to_pickle` opens the file with mode "wb", which empties it, before it pickles.  A stop right after that, or an
  object that cannot be pickled, destroys the model saved there before (`save_not_atomic`, `failed_save_destroys`).
* C118: `get_mnl_point_est` writes `just_point=True` (and a default `method`) into the caller's
  `mnl_fit_kwargs`; `fit_mle(x, **mnl_fit_kwargs)` afterwards returns normally and stores nothing.
* C119: the probability of a sequence of choices that underflows (from about 1086 choices with probabilities
  up to one half) is replaced by 1e-300.  The log-likelihood is constant there although its computed gradient is
  not zero, and a person with two improbable choices can get a lower probability than one with three.
* C120: utilities are clipped to [-700, 700] inside the log-likelihood that is maximised.  For some data the clipped
  log-likelihood is higher, where utilities are clipped, than at the maximum likelihood estimate
  (`clipping_beats_estimate`).  Data in which nobody chose an alternative with a constant are accepted, and their fits
  are stored without an exception although no estimate exists.
* C122: `calc_endpoint_from_percentile_abc` omits the division by n^2 that `efron_endpoint_from_percentile_abc` has, so
  its endpoints are n^2 standard errors away where they should be one (`abc_endpoints_differ`). The weights in
  `calc_quadratic_coef_abc` sum to 1 - epsilon, so that an estimate linear in the weights gets the coefficient
  -2 mean / epsilon instead of 0 (`abc_quadratic_linear`). The library calls neither.
* C123: false for large utilities.  With utilities 700 and -700 the computed probability of the second alternative is
  1e-300, more than 1e300 times the exact one (`float_probs_inaccurate`).
* C125: proved for the asymmetric and nested logit models only if the
  utilities of the multinomial logit fit are at most 700 in absolute value
  (the multinomial logit code clips them there, the other two transform them
  otherwise), and for the asymmetric logit model with two alternatives only
  without a ridge penalty: its index is multiplied by the logarithm of the number
  of alternatives, so with two alternatives the same utilities need larger,
  more penalised coefficients, and on the table of
  `asym_two_alternatives_worse` it fits worse than the multinomial logit.
* C127: false of the BCa interval where the number is negative and a replicate
  equals the estimate: the bias correction counts the replicates strictly
  below the estimate, so a tie counts as above it in both units
  (`bca_interval_ties`). Also false with a ridge penalty, which depends on the
  units: the estimates of two fits can then follow the units only where they
  are zero (`fit_units_ridge`, with the concrete table of
  `exNine_ridge_units`). Proved otherwise, if no utility is clipped at the
  estimates.
* C94 assumes finite utilities. Finite data and coefficients do not ensure
  them: if two products in one row overflow in opposite directions, all
  probabilities of the observation are NaN (`float_overflow_nan`); if they
  overflow in one direction only, they are valid (`float_same_sign_valid`).
* C128: false when a column is given two roles, because `convert_long_to_wide`
  counts names with repetitions: another column is then lost silently
  (`long_to_wide_silent_loss`). False for availabilities that are not 0 or 1 but
  add up to the number of those that are not 0 (`wide_to_long_silent_wrong`);
  and the wrong pairing of C11 is silent (`wide_to_long_key_order_silent`).
* C107: false when the availability dictionary is not in ascending key order (the disagreement of C11): the
  conversion loses choices without an error and the fit maximises another function.
  `wide_fit_loses_choice` shows a table where the two values differ. The theorem covers 0/1 availability cells
  and ascending keys.
* C108: false for the mixed logit. The draws are dealt to the individuals in the order in which the table first
  mentions them (`mixed_fit_deals_draws`), so a table that mentions them in another order is fitted by maximising
  another simulated log-likelihood although the seed is the same. `mixed_fit_depends_on_order` shows two tables with the
  same data and different values.
* C85: the null log-likelihood of the nested logit is not that of equal shares.
* C76: outside intercepts without names make `predict` refuse every list.
