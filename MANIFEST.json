{
 "claims": [
  {
   "property": "C01",
   "status": "proved",
   "theorems": [
    "Opinf.C01_full_entries_action",
    "Opinf.C01_compressed_entries_action",
    "Opinf.C01_other_widths_rejected"
   ],
   "note": ""
  },
  {
   "property": "C02",
   "status": "proved",
   "theorems": [
    "Opinf.C02_compress_expand",
    "Opinf.C02_expand_compress",
    "Opinf.C02_errors"
   ],
   "note": ""
  },
  {
   "property": "C03",
   "status": "proved",
   "theorems": [
    "Opinf.C03_datablock_shape",
    "Opinf.C03_apply_eq_entries_datablock",
    "Opinf.C03_kron_state_length",
    "Opinf.C03_kron_datablock_refused"
   ],
   "note": ""
  },
  {
   "property": "C04",
   "status": "proved",
   "theorems": [
    "Opinf.C04_jacobian_is_derivative",
    "Opinf.C04_stateinput_jacobian_error",
    "Opinf.C04_kron_jacobian_is_derivative",
    "Opinf.C04_kron_jacobian_errors"
   ],
   "note": ""
  },
  {
   "property": "C05",
   "status": "proved",
   "theorems": [
    "Opinf.C05_jacobian_cache_never_stale",
    "Opinf.C05_inplace_mutation_goes_stale"
   ],
   "note": ""
  },
  {
   "property": "C06",
   "status": "proved",
   "theorems": [
    "Opinf.C06_galerkin_commutes",
    "Opinf.C06_galerkin_errors"
   ],
   "note": ""
  },
  {
   "property": "C07",
   "status": "proved",
   "theorems": [
    "Opinf.C07_monomials_exactly_once",
    "Opinf.C07_agrees_with_dedicated",
    "Opinf.C07_poly_state_length"
   ],
   "note": ""
  },
  {
   "property": "C08",
   "status": "proved",
   "theorems": [
    "Opinf.C08_operator_dimension",
    "Opinf.C08_polynomial_dimension"
   ],
   "note": ""
  },
  {
   "property": "C09",
   "status": "proved",
   "theorems": [
    "Opinf.C09_apply",
    "Opinf.C09_refusals",
    "Opinf.C09_block",
    "Opinf.C09_galerkin",
    "Opinf.C09_functions",
    "Opinf.C09_identity",
    "Opinf.C09_callable",
    "Opinf.C09_construct_refused",
    "Opinf.C09_construct_entries"
   ],
   "note": ""
  },
  {
   "property": "C10",
   "status": "partial",
   "theorems": [
    "Opinf.C10_wrong_length_accepted",
    "Opinf.C10_block_width",
    "Opinf.C10_no_coefficients",
    "Opinf.C10_right_length_partial",
    "Opinf.C10_wrong_length_witness"
   ],
   "note": "The property is false of the code: coefficient vectors of the wrong length are accepted and truncated; negation proved in general and with a witness. With the right length nothing is dropped (_partial theorem)."
  },
  {
   "property": "C11",
   "status": "partial",
   "theorems": [
    "Opinf.C11_survives_partial",
    "Opinf.C11_galerkin_partial",
    "Opinf.C11_unsorted_constructed",
    "Opinf.C11_unsorted_fails",
    "Opinf.C11_witness",
    "Opinf.C11_default_class"
   ],
   "note": "False of the code for scalar training parameters that are not in increasing order (default interpolator class): copy, load, projection and a second set_entries raise ValueError; proved for every such operator and with a witness. The remaining cases are proved (_partial theorems). The scipy interpolators are specified by ItpLib.Contract."
  },
  {
   "property": "C12",
   "status": "proved",
   "theorems": [
    "Opinf.C12_block",
    "Opinf.C12_from_operators"
   ],
   "note": ""
  },
  {
   "property": "C13",
   "status": "proved",
   "theorems": [
    "Opinf.C13_fit_residual"
   ],
   "note": ""
  },
  {
   "property": "C14",
   "status": "proved",
   "theorems": [
    "Opinf.C14_extract_roundtrip",
    "Opinf.C14_fit_operator_matrix"
   ],
   "note": ""
  },
  {
   "property": "C15",
   "status": "proved",
   "theorems": [
    "Opinf.C15_predict_iff",
    "Opinf.C15_predict_prefix",
    "Opinf.C15_predict_restart"
   ],
   "note": ""
  },
  {
   "property": "C16",
   "status": "proved",
   "theorems": [
    "Opinf.C16_stack_pairs",
    "Opinf.C16_stack_inputs",
    "Opinf.C16_empty_trajectory_misaligned"
   ],
   "note": "Holds for trajectories with at least one state; for an empty trajectory the inputs are misaligned (witness theorem)."
  },
  {
   "property": "C17",
   "status": "proved",
   "theorems": [
    "Opinf.C17_equality_iff",
    "Opinf.C17_equality_equivalence"
   ],
   "note": ""
  },
  {
   "property": "C18",
   "status": "proved",
   "theorems": [
    "Opinf.C18_galerkin_commutes"
   ],
   "note": ""
  },
  {
   "property": "C19",
   "status": "partial",
   "theorems": [
    "Opinf.C19_decouples",
    "Opinf.C19_twice",
    "Opinf.C19_residual_wrong",
    "Opinf.C19_exact_partial",
    "Opinf.C19_same_twice",
    "Opinf.C19_witness"
   ],
   "note": "False of the code when operators are known: fit() subtracts their contribution twice (once as op(mu_i), once as entries[i]); proved in general (C19_twice, C19_residual_wrong) and with a witness. Without known operators the stated regression is solved (C19_exact_partial)."
  },
  {
   "property": "C20",
   "status": "partial",
   "theorems": [
    "Opinf.C20_copy_same_model",
    "Opinf.C20_copy_cannot_be_refitted",
    "Opinf.C20_load_same_model",
    "Opinf.C20_load_cannot_be_refitted",
    "Opinf.C20_fit_trains"
   ],
   "note": "The refit half of the property is false of the code: copies and reloaded versions of a trained model are treated as fully intrusive, so fit() and refit() silently do nothing (proved for every trained model); the same-behaviour half is proved in full."
  },
  {
   "property": "C21",
   "status": "proved",
   "theorems": [
    "Opinf.C21_fit_ignores_inputs",
    "Opinf.C21_fit_requires_inputs",
    "Opinf.C21_rhs_ignores_inputs",
    "Opinf.C21_predict_ignores_inputs",
    "Opinf.C21_rhs_requires_input",
    "Opinf.C21_predict_requires_inputs"
   ],
   "note": ""
  },
  {
   "property": "C22",
   "status": "proved",
   "theorems": [
    "Opinf.C22_l2_minimises",
    "Opinf.C22_l2_minimises_frobenius",
    "Opinf.C22_l2_rejects"
   ],
   "note": ""
  },
  {
   "property": "C23",
   "status": "proved",
   "theorems": [
    "Opinf.C23_l2_rows_decoupled",
    "Opinf.C23_tikhonov_rows_decoupled",
    "Opinf.C23_diagonal_regularizers"
   ],
   "note": ""
  },
  {
   "property": "C24",
   "status": "proved",
   "theorems": [
    "Opinf.C24_tikhonov_lstsq_minimises",
    "Opinf.C24_tikhonov_normal_minimises",
    "Opinf.C24_tikhonov_methods_agree",
    "Opinf.C24_diagonal_regularizer",
    "Opinf.C24_matrix_regularizer"
   ],
   "note": ""
  },
  {
   "property": "C25",
   "status": "proved",
   "theorems": [
    "Opinf.C25_operator_regularizer",
    "Opinf.C25_penalty_per_operator",
    "Opinf.C25_assigned"
   ],
   "note": ""
  },
  {
   "property": "C26",
   "status": "partial",
   "theorems": [
    "Opinf.C26_truncated_solution_partial",
    "Opinf.C26_excess_negative_modes",
    "Opinf.C26_refit",
    "Opinf.C26_second_fit_loses_modes",
    "Opinf.C26_second_fit_regains_modes",
    "Opinf.C26_excess_negative_witness",
    "Opinf.C26_set_modes"
   ],
   "note": "The truncated-solution formula and minimal-norm least-squares characterisation hold for a first fit with an in-range number of modes; negations proved: a second fit can lose or regain modes and nmodes below -p is not rejected."
  },
  {
   "property": "C27",
   "status": "proved",
   "theorems": [
    "Opinf.C27_total_least_squares",
    "Opinf.C27_fits",
    "Opinf.C27_underdetermined",
    "Opinf.C27_misshaped",
    "Opinf.C27_failed_fit",
    "Opinf.C27_history",
    "Opinf.C27_stale"
   ],
   "note": ""
  },
  {
   "property": "C28",
   "status": "partial",
   "theorems": [
    "Opinf.C28_l2_consistent",
    "Opinf.C28_l2_failed_svd_leaves_stale_solution",
    "Opinf.C28_l2dec_consistent",
    "Opinf.C28_l2dec_rejected_regularizer_is_used",
    "Opinf.C28_tikhonov_consistent_partial",
    "Opinf.C28_tikhonov_fit_restores",
    "Opinf.C28_tikhonov_stale",
    "Opinf.C28_tikdec_consistent_partial",
    "Opinf.C28_tikdec_stale",
    "Opinf.C28_l2_assignment",
    "Opinf.C28_l2_decoupled_assignment",
    "Opinf.C28_l2_reset",
    "Opinf.C28_l2_decoupled_reset",
    "Opinf.C28_tikhonov_reset",
    "Opinf.C28_tikhonov_decoupled_reset"
   ],
   "note": "Proved for L2Solver and L2DecoupledSolver histories without failing decompositions; false of TikhonovSolver and TikhonovDecoupledSolver after a refused refit and of decoupled solvers after a rejected assignment (negations proved with witnesses)."
  },
  {
   "property": "C29",
   "status": "proved",
   "theorems": [
    "Opinf.C29_residual",
    "Opinf.C29_l2_regresidual",
    "Opinf.C29_l2dec_regresidual",
    "Opinf.C29_l2_solution_optimal",
    "Opinf.C29_tikhonov_regresidual",
    "Opinf.C29_tikdec_regresidual",
    "Opinf.C29_tikdec_regresidual_rejects_vector"
   ],
   "note": ""
  },
  {
   "property": "C30",
   "status": "proved",
   "theorems": [
    "Opinf.C30_l2_posterior",
    "Opinf.C30_l2dec_posterior",
    "Opinf.C30_tikhonov_posterior",
    "Opinf.C30_tikdec_posterior",
    "Opinf.C30_forms_positive"
   ],
   "note": ""
  },
  {
   "property": "C31",
   "status": "proved",
   "theorems": [
    "Opinf.C31_scheme_names",
    "Opinf.C31_constructor",
    "Opinf.C31_made_exact",
    "Opinf.C31_exact_on_polynomials",
    "Opinf.C31_too_few_snapshots"
   ],
   "note": ""
  },
  {
   "property": "C32",
   "status": "proved",
   "theorems": [
    "Opinf.C32_made_inputs",
    "Opinf.C32_estimate_aligned",
    "Opinf.C32_misaligned_inputs_rejected"
   ],
   "note": ""
  },
  {
   "property": "C33",
   "status": "partial",
   "theorems": [
    "Opinf.C33_verify_aligned_iff",
    "Opinf.C33_verify_misaligned_witness"
   ],
   "note": "The property is false of the code: verify() compares aligned times iff the scheme's first estimate is at the first snapshot; negation proved with a concrete witness and exact characterisation."
  },
  {
   "property": "C34",
   "status": "proved",
   "theorems": [
    "Opinf.C34_nonuniform_exact_on_quadratics",
    "Opinf.C34_errors"
   ],
   "note": ""
  },
  {
   "property": "C35",
   "status": "partial",
   "theorems": [
    "Opinf.C35_shift_invertible",
    "Opinf.C35_scale_invertible",
    "Opinf.C35_null_invertible",
    "Opinf.C35_shiftscale_invertible",
    "Opinf.C35_shiftscale_locs_partial",
    "Opinf.C35_locs_unscaled_byrow_raises",
    "Opinf.C35_pipeline_invertible",
    "Opinf.C35_pipeline_locs",
    "Opinf.C35_multi_invertible",
    "Opinf.C35_multi_locs"
   ],
   "note": "Proved in full except one case in which the property is false of the code: ShiftScaleTransformer with byrow=True and no scaling raises TypeError in inverse_transform(locs=...); negation proved, all other locs cases in the _partial theorem."
  },
  {
   "property": "C36",
   "status": "proved",
   "theorems": [
    "Opinf.C36_minmax",
    "Opinf.C36_minmaxsym",
    "Opinf.C36_maxabs",
    "Opinf.C36_maxabssym",
    "Opinf.C36_standard",
    "Opinf.C36_centering",
    "Opinf.C36_centering_maxabs",
    "Opinf.C36_maxnorm",
    "Opinf.C36_minmax_applies_iff_nonconstant"
   ],
   "note": "Ranges and means of the training data for every calibration that gives finite numbers; for minmax/minmaxsym this is proved to be exactly the non-constant data. standard/maxnorm use a square root with its defining property."
  },
  {
   "property": "C37",
   "status": "proved",
   "theorems": [
    "Opinf.C37_shift_differentiates",
    "Opinf.C37_scale_differentiates",
    "Opinf.C37_null_differentiates",
    "Opinf.C37_shiftscale_differentiates",
    "Opinf.C37_pipeline_differentiates",
    "Opinf.C37_multi_differentiates"
   ],
   "note": ""
  },
  {
   "property": "C38",
   "status": "proved",
   "theorems": [
    "Opinf.C38_shift",
    "Opinf.C38_null",
    "Opinf.C38_scale",
    "Opinf.C38_shiftscale",
    "Opinf.C38_refit_forgets_history",
    "Opinf.C38_basic",
    "Opinf.C38_pipeline",
    "Opinf.C38_multi"
   ],
   "note": ""
  },
  {
   "property": "C39",
   "status": "partial",
   "theorems": [
    "Opinf.C39_basis_split",
    "Opinf.C39_basis_get_var",
    "Opinf.C39_split_partition",
    "Opinf.C39_get_var",
    "Opinf.C39_get_var_name",
    "Opinf.C39_wrong_length_rejected",
    "Opinf.C39_unknown_sizes_rejected",
    "Opinf.C39_get_var_minus_one_empty"
   ],
   "note": "Proved for TransformerMulti and BasisMulti (the latter if equal total dimensions mean equal dimensions, see C46); get_var(-1) returns an empty array instead of the last variable (C39_get_var_minus_one_empty)."
  },
  {
   "property": "C40",
   "status": "partial",
   "theorems": [
    "Opinf.C40_shift",
    "Opinf.C40_null",
    "Opinf.C40_scale_history",
    "Opinf.C40_scale_partial",
    "Opinf.C40_scale_one_entry_array",
    "Opinf.C40_shiftscale_history",
    "Opinf.C40_shiftscale",
    "Opinf.C40_shiftscale_eq",
    "Opinf.C40_scale_without_shift",
    "Opinf.C40_pipeline_partial",
    "Opinf.C40_pipeline_name_lost",
    "Opinf.C40_pipeline_wrong_classes",
    "Opinf.C40_multi_wrong_classes",
    "Opinf.C40_multi",
    "Opinf.C40_multi_named",
    "Opinf.C40_basic",
    "Opinf.C40_loaded_not_equal",
    "Opinf.C40_multi_shiftscale_equal"
   ],
   "note": "Round trip proved for every reachable ShiftScaleTransformer, for Shift, Null, Scale and multi-variable transformers; the property is false of the code in cases proved as negations: one-entry array scalings load as numbers, a pipeline's own name None loads as 'None', classes other than ShiftScaleTransformer are never == to their loaded copies, a scale_ assigned without shift_ cannot be saved."
  },
  {
   "property": "C41",
   "status": "partial",
   "theorems": [
    "Opinf.C41_quadratic_unlift",
    "Opinf.C41_quadratic_entries",
    "Opinf.C41_quadratic_ddts",
    "Opinf.C41_quadratic_is_polynomial",
    "Opinf.C41_polynomial_entries",
    "Opinf.C41_polynomial_finite",
    "Opinf.C41_polynomial_unlift",
    "Opinf.C41_polynomial_unlift_iff_nonneg",
    "Opinf.C41_polynomial_unlift_abs",
    "Opinf.C41_polynomial_zero_orders",
    "Opinf.C41_polynomial_ddts",
    "Opinf.C41_polynomial_ddts_defined",
    "Opinf.C41_polynomial_ddts_zero_order",
    "Opinf.C41_orders",
    "Opinf.C41_single_order_truncated",
    "Opinf.C41_single_order_integer"
   ],
   "note": "Inversion proved in full (orders containing 1: any states; without 1: exact characterisation). Derivative proved wherever lift_ddts is finite; with an order 0 it is NaN at zero states although the lifted variable is constant (negation C41_polynomial_ddts_zero_order)."
  },
  {
   "property": "C42",
   "status": "proved",
   "theorems": [
    "Opinf.C42_compress_decompress",
    "Opinf.C42_project_idempotent",
    "Opinf.C42_decompress_locs",
    "Opinf.C42_project_closest",
    "Opinf.C42_weights_psd",
    "Opinf.C42_constructor",
    "Opinf.C42_weights_refused",
    "Opinf.C42_errors",
    "Opinf.C42_make_iff",
    "Opinf.C42_make_compress",
    "Opinf.C42_fit_compress"
   ],
   "note": ""
  },
  {
   "property": "C43",
   "status": "partial",
   "theorems": [
    "Opinf.C43_residual_monotone",
    "Opinf.C43_cumulative",
    "Opinf.C43_residual_partial",
    "Opinf.C43_residual_no_tie",
    "Opinf.C43_projection_error",
    "Opinf.C43_svdval_threshold",
    "Opinf.C43_cumulative_function",
    "Opinf.C43_residual_function",
    "Opinf.C43_svdval_function",
    "Opinf.C43_set_dimension",
    "Opinf.C43_residual_tie_witness",
    "Opinf.C43_residual_not_least",
    "Opinf.C43_constructor",
    "Opinf.C43_set_dimension_criterion",
    "Opinf.C43_fit",
    "Opinf.C43_from_svd"
   ],
   "note": "Proved as stated for cumulative_energy (class and function), the function residual_energy and svdval_threshold. For the class criteria residual_energy and projection_error the claim is false at ties: the code compares with >=, so it picks the smallest r whose residual is strictly below the threshold (C43_residual_partial, negation C43_residual_not_least); away from ties the claim holds (C43_residual_no_tie)."
  },
  {
   "property": "C44",
   "status": "partial",
   "theorems": [
    "Opinf.C44_history",
    "Opinf.C44_call",
    "Opinf.C44_setter_all_stored",
    "Opinf.C44_setter_value",
    "Opinf.C44_setter_before_fit",
    "Opinf.C44_fit_forgets",
    "Opinf.C44_max_vectors",
    "Opinf.C44_negative_dimension_witness"
   ],
   "note": "Proved for all histories that never ask for a negative number of vectors; with a negative dimension the slices of vectors and singular values differ when fewer vectors than singular values are stored (C44_negative_dimension_witness)."
  },
  {
   "property": "C45",
   "status": "partial",
   "theorems": [
    "Opinf.C45_linear_save_load",
    "Opinf.C45_linear_untrained",
    "Opinf.C45_normalized",
    "Opinf.C45_pod_load",
    "Opinf.C45_pod_save_load_partial",
    "Opinf.C45_agrees_after_fit",
    "Opinf.C45_agrees_after_set_dimension",
    "Opinf.C45_max_vectors_partial",
    "Opinf.C45_max_vectors_num",
    "Opinf.C45_untrained",
    "Opinf.C45_setter_lost_witness",
    "Opinf.C45_max_vectors_increases_witness",
    "Opinf.C45_no_right_vectors",
    "Opinf.C45_from_svd_unsavable_witness"
   ],
   "note": "False as stated: an assignment to reduced_state_dimension of a trained basis is not saved (C45_setter_lost_witness) and load(max_vectors=m) can increase the dimension for num_vectors (C45_max_vectors_increases_witness). C45_pod_load says exactly what is loaded; C45_pod_save_load_partial and C45_max_vectors_partial give the claim where it holds."
  },
  {
   "property": "C46",
   "status": "partial",
   "theorems": [
    "Opinf.C46_no_ambiguity",
    "Opinf.C46_compress",
    "Opinf.C46_decompress",
    "Opinf.C46_project",
    "Opinf.C46_decompress_locs",
    "Opinf.C46_locs_refused",
    "Opinf.C46_wrong_length",
    "Opinf.C46_compress_decompress",
    "Opinf.C46_linear_section",
    "Opinf.C46_fit",
    "Opinf.C46_fit_fails",
    "Opinf.C46_fit_equal_sizes",
    "Opinf.C46_fit_indivisible",
    "Opinf.C46_save_load",
    "Opinf.C46_load_wrong_classes",
    "Opinf.C46_constructor_names",
    "Opinf.C46_ambiguity_witness",
    "Opinf.C46_half_known_type_error",
    "Opinf.C46_constructor",
    "Opinf.C46_pod_parts"
   ],
   "note": "Assumes that equal total dimensions mean equal dimensions, which holds whenever no basis has more vectors than rows (C46_no_ambiguity); without it the claim fails (C46_ambiguity_witness)."
  },
  {
   "property": "C47",
   "status": "partial",
   "theorems": [
    "Opinf.C47_encode",
    "Opinf.C47_decode",
    "Opinf.C47_predict",
    "Opinf.C47_project",
    "Opinf.C47_decode_encode",
    "Opinf.C47_decode_encode_in_span",
    "Opinf.C47_encode_decode",
    "Opinf.C47_encode_defined",
    "Opinf.C47_project_idempotent_partial",
    "Opinf.C47_predict_exact",
    "Opinf.C47_decode_locs_partial",
    "Opinf.C47_locs_ignored",
    "Opinf.C47_decode_argument",
    "Opinf.C47_encode_arguments",
    "Opinf.C47_lhs_discrete",
    "Opinf.C47_encode_ddts",
    "Opinf.C47_lhs_continuous",
    "Opinf.C47_fit_encode",
    "Opinf.C47_linear_basis",
    "Opinf.C47_quadratic_lifter",
    "Opinf.C47_polynomial_lifter",
    "Opinf.C47_project_lifter_witness",
    "Opinf.C47_locs_lifter_witness",
    "Opinf.C47_locs_no_basis_witness"
   ],
   "note": "Order of the steps, predict, decode-encode round trips, lhs handling and fit flags proved for every combination of parts; project idempotent and decode(locs) proved without a lifter (locs: with a basis). False of the code otherwise: with a lifter project is not idempotent and locs select wrong entries, without a basis locs are ignored or combined with the parameters of other locations (negations proved)."
  },
  {
   "property": "C48",
   "status": "proved",
   "theorems": [
    "Opinf.C48_never_worse",
    "Opinf.C48_grid_only",
    "Opinf.C48_all_unstable",
    "Opinf.C48_exception",
    "Opinf.C48_candidates",
    "Opinf.C48_bounds",
    "Opinf.C48_sorted"
   ],
   "note": ""
  },
  {
   "property": "C49",
   "status": "proved",
   "theorems": [
    "Opinf.C49_selected",
    "Opinf.C49_no_stable_candidate",
    "Opinf.C49_prediction_raises",
    "Opinf.C49_mean",
    "Opinf.C49_as_fit",
    "Opinf.C49_discrete_stable",
    "Opinf.C49_continuous_stable",
    "Opinf.C49_test_case",
    "Opinf.C49_training_data_stable"
   ],
   "note": ""
  },
  {
   "property": "C50",
   "status": "partial",
   "theorems": [
    "Opinf.C50_same_outcome",
    "Opinf.C50_l2_partial",
    "Opinf.C50_tikhonov_reset_partial",
    "Opinf.C50_tikhonov_raises",
    "Opinf.C50_second_call_witness"
   ],
   "note": "False of the code: the solver is never reset (hasattr(self.model,'reset') is always false), so a TikhonovSolver that still holds the regularization matrix of an earlier dimension raises DimensionalityError (C50_tikhonov_raises, for all such calls; C50_second_call_witness, a concrete pair of calls). Proved where it holds: L2Solver after any sequence of selections, TikhonovSolver if reset by hand."
  },
  {
   "property": "C51",
   "status": "proved",
   "theorems": [
    "Opinf.C51_existing_file_kept",
    "Opinf.C51_history_keeps_files",
    "Opinf.C51_save_changes_one_file",
    "Opinf.C51_warns_iff_ending",
    "Opinf.C51_load_errors"
   ],
   "note": ""
  },
  {
   "property": "C52",
   "status": "partial",
   "theorems": [
    "Opinf.C52_contents",
    "Opinf.C52_load_last_saved",
    "Opinf.C52_failed_save_destroys",
    "Opinf.C52_failed_save_destroys_witness"
   ],
   "note": "Holds for every history of saves whose bodies do not raise; a save that raises midway has already truncated the old file (negation proved, with a ShiftScaleTransformer as witness)."
  },
  {
   "property": "C53",
   "status": "partial",
   "theorems": [
    "Opinf.C53_limit",
    "Opinf.C53_no_alarm_left",
    "Opinf.C53_limit_enforced",
    "Opinf.C53_timeout_iff",
    "Opinf.C53_unlimited",
    "Opinf.C53_reraises",
    "Opinf.C53_elapsed_partial",
    "Opinf.C53_nested_limit_lost",
    "Opinf.C53_nested_witness",
    "Opinf.C53_elapsed_witness"
   ],
   "note": "Proved for blocks without limited blocks inside (timeout iff the limit elapses, no alarm pending afterwards, exceptions leave the block). False of the code for nested blocks: an inner block with a limit cancels the limit of the outer one (C53_nested_limit_lost, C53_nested_witness). The reported time is processor time, so the documented sleep example reports 0 (C53_elapsed_witness)."
  },
  {
   "property": "C54",
   "status": "partial",
   "theorems": [
    "Opinf.C54_frobenius",
    "Opinf.C54_frobenius_value",
    "Opinf.C54_Lp_partial",
    "Opinf.C54_Lp_inf",
    "Opinf.C54_Lp_single_time_witness",
    "Opinf.C54_Lp_one_dimensional",
    "Opinf.C54_lp",
    "Opinf.C54_refused",
    "Opinf.C54_projection",
    "Opinf.C54_real_exponents",
    "Opinf.C54_real_sqrt",
    "Opinf.C54_Lp_value",
    "Opinf.C54_lp_value",
    "Opinf.C54_lp_normalized",
    "Opinf.C54_Lp_inf_value"
   ],
   "note": "Proved in full for frobenius_error, lp_error, Lp_error with p=inf and projection_error; for Lp_error with finite p the zero-iff-equal half needs at least two increasing times and is false for a single time (negation proved for all data)."
  },
  {
   "property": "C55",
   "status": "partial",
   "theorems": [
    "Opinf.C55_constructor",
    "Opinf.C55_eq_iff",
    "Opinf.C55_draw",
    "Opinf.C55_round_trip_partial",
    "Opinf.C55_loaded_draw_wrong_shape",
    "Opinf.C55_loaded_draw_raises",
    "Opinf.BayesEx.C55_witness"
   ],
   "note": "Saving and loading gives an equal posterior if the library accepts the covariance arrays (otherwise load raises). The statement on draws is false of the code: from a loaded posterior rvs() returns a vector of first entries, or raises IndexError for d = 1 (C55_loaded_draw_wrong_shape, C55_loaded_draw_raises, C55_witness)."
  },
  {
   "property": "C56",
   "status": "proved",
   "theorems": [
    "Opinf.C56_lstsq_size",
    "Opinf.C56_lstsq_size_affine",
    "Opinf.C56_lstsq_size_rejects"
   ],
   "note": ""
  },
  {
   "property": "C57",
   "status": "proved",
   "theorems": [
    "Opinf.C57_construct_iff",
    "Opinf.C57_construct_reports",
    "Opinf.C57_construct_errors",
    "Opinf.C57_operator_dimensions",
    "Opinf.C57_operator_unset",
    "Opinf.C57_parametric_accepts",
    "Opinf.C57_parametric_reports"
   ],
   "note": ""
  },
  {
   "property": "C58",
   "status": "proved",
   "theorems": [
    "Opinf.C58_evaluated_dimensions",
    "Opinf.C58_learned_dimension",
    "Opinf.C58_discrete",
    "Opinf.C58_discrete_nextstates",
    "Opinf.C58_after_evaluation",
    "Opinf.C58_evaluated_again",
    "Opinf.C58_after_failure",
    "Opinf.C58_any_calls",
    "Opinf.C58_calls_independent",
    "Opinf.C58_calls_known",
    "Opinf.C58_calls_dimension_witness",
    "Opinf.C58_rhs",
    "Opinf.C58_methods",
    "Opinf.C58_fit",
    "Opinf.C58_fit_residual",
    "Opinf.C58_fit_usable"
   ],
   "note": ""
  },
  {
   "property": "C59",
   "status": "proved",
   "theorems": [
    "Opinf.C59_failed_fit_clears"
   ],
   "note": ""
  },
  {
   "property": "C60",
   "status": "proved",
   "theorems": [
    "Opinf.C60_fit_forgets_history",
    "Opinf.C60_l2_fit_forgets_history",
    "Opinf.C60_tikhonov_fit_forgets_history"
   ],
   "note": ""
  },
  {
   "property": "C61",
   "status": "partial",
   "theorems": [
    "Opinf.C61_rejected_assignment_changes_model",
    "Opinf.C61_rejected_assignment_partial"
   ],
   "note": "The property is false of the code: a rejected assignment changes the has-inputs flag and possibly the state dimension; negation proved with a witness, and what does survive is proved in the _partial theorem."
  },
  {
   "property": "C62",
   "status": "proved",
   "theorems": [
    "Opinf.C62_l2_fit_is_optimal",
    "Opinf.C62_plain_fit_is_optimal",
    "Opinf.C62_tikhonov_fit_is_optimal"
   ],
   "note": ""
  },
  {
   "property": "C63",
   "status": "proved",
   "theorems": [
    "Opinf.C63_discrete_fit_residual",
    "Opinf.C63_discrete_fit_explicit"
   ],
   "note": ""
  },
  {
   "property": "C64",
   "status": "proved",
   "theorems": [
    "Opinf.C64_discrete_reproduces"
   ],
   "note": ""
  },
  {
   "property": "C65",
   "status": "proved",
   "theorems": [
    "Opinf.C65_fit",
    "Opinf.C65_fit_no_posterior",
    "Opinf.C65_mean",
    "Opinf.C65_error",
    "Opinf.C65_draw",
    "Opinf.C65_draw_none",
    "Opinf.C65_selected",
    "Opinf.C65_candidate_raises",
    "Opinf.C65_forgets",
    "Opinf.C65_solvers",
    "Opinf.BayesSelEx.C65_witness"
   ],
   "note": ""
  },
  {
   "property": "C66",
   "status": "partial",
   "theorems": [
    "Opinf.C66_copy",
    "Opinf.C66_save_load",
    "Opinf.C66_load_class",
    "Opinf.C66_integer_coefficients_fail"
   ],
   "note": "Proved for callable and list-of-callables coefficients; false of the code for integer coefficients, where load() raises AttributeError (proved)."
  },
  {
   "property": "C67",
   "status": "partial",
   "theorems": [
    "Opinf.C67_known_interpolated",
    "Opinf.C67_witness"
   ],
   "note": "False of the code: set_training_parameters is called on every interpolated operator, so fit() raises AttributeError for every such model, proved for all data and solvers and with a witness."
  },
  {
   "property": "C68",
   "status": "partial",
   "theorems": [
    "Opinf.C68_unsorted_second_fit",
    "Opinf.C68_refit_first",
    "Opinf.C68_witness"
   ],
   "note": "False of the code for scalar training parameters that are not increasing: after a successful fit, no further fit with these parameters and no refit succeeds; proved in general and with a witness (sorted parameters work there)."
  },
  {
   "property": "C69",
   "status": "proved",
   "theorems": [
    "Opinf.C69_given_lhs",
    "Opinf.C69_discrete",
    "Opinf.C69_discrete_columns",
    "Opinf.C69_estimated",
    "Opinf.C69_estimated_inputs",
    "Opinf.C69_stacked_columns",
    "Opinf.C69_missing",
    "Opinf.C69_single",
    "Opinf.C69_lists",
    "Opinf.C69_one_trajectory"
   ],
   "note": ""
  },
  {
   "property": "C70",
   "status": "proved",
   "theorems": [
    "Opinf.C70_l2",
    "Opinf.C70_plain",
    "Opinf.C70_tikhonov",
    "Opinf.C70_finite_differences_align",
    "Opinf.C70_estimated_aligned",
    "Opinf.C70_discrete_aligned",
    "Opinf.C70_discrete_samples"
   ],
   "note": "For training data whose left-hand sides and inputs have as many columns as the states, trajectory by trajectory; proved to hold for estimated derivatives (C70_estimated_aligned, C70_finite_differences_align) and for fully discrete models (C70_discrete_aligned). Least squares, SVD and positive definite solves are specified by contracts."
  },
  {
   "property": "C71",
   "status": "partial",
   "theorems": [
    "Opinf.C71_trajectories_dropped",
    "Opinf.C71_only_totals_matter",
    "Opinf.C71_inputs_shifted",
    "Opinf.C71_dropped_witness",
    "Opinf.C71_misaligned_witness",
    "Opinf.C71_shifted_witness",
    "Opinf.C71_estimator_checks_partial"
   ],
   "note": "False of the code: with a derivative estimator, trajectories without inputs are silently dropped (zip); given left-hand sides are matched only by the total number of columns; with given next states of a fully discrete model, longer inputs are cut at the total and thereby shifted between trajectories. Each proved in general and with a witness. The finite-difference estimator does check the inputs of each trajectory (C71_estimator_checks_partial)."
  },
  {
   "property": "C72",
   "status": "proved",
   "theorems": [
    "Opinf.C72_continuous_trajectory",
    "Opinf.C72_discrete",
    "Opinf.C72_continuous",
    "Opinf.C72_discrete_trajectory",
    "Opinf.C72_discrete_cases",
    "Opinf.C72_input_values",
    "Opinf.C72_refused",
    "Opinf.C72_discrete_test",
    "Opinf.C72_continuous_test",
    "Opinf.C72_continuous_cases",
    "Opinf.C72_discrete_passed",
    "Opinf.C72_continuous_passed",
    "Opinf.C72_continuous_arguments",
    "Opinf.C72_continuous_followed",
    "Opinf.C72_continuous_refused"
   ],
   "note": "For nonparametric models and a solver that has not been fitted before (Commute: L2Solver always, TikhonovSolver without data; see C50 for solvers used before). The integrator of a time-continuous model is a parameter."
  },
  {
   "property": "C73",
   "status": "partial",
   "theorems": [
    "Opinf.C73_discrete_partial",
    "Opinf.C73_blind",
    "Opinf.C73_discrete_witness",
    "Opinf.C73_continuous_partial",
    "Opinf.C73_continuous_short",
    "Opinf.C73_nan_accepted",
    "Opinf.C73_nan_witness"
   ],
   "note": "False of the code. Discrete: the prediction has k-1+N states for k snapshots, so only N-1 iterations after the data are checked and with N=0 the last snapshot is not reached (C73_discrete_partial, C73_blind, C73_discrete_witness). Continuous: for T below one time step nothing is checked, below two steps only one time (C73_continuous_short); from two steps on the checked times reach one step beyond T (C73_continuous_partial). A complete solution with NaN counts as stable (C73_nan_accepted, C73_nan_witness)."
  },
  {
   "property": "C74",
   "status": "proved",
   "theorems": [
    "Opinf.C74_best_basis",
    "Opinf.C74_refused"
   ],
   "note": "Exact arithmetic; the singular value decomposition, matrix square root and Cholesky solve are parameters with stated contracts (IsThinSvd, RootOf). The randomized solver does not meet the contract."
  },
  {
   "property": "C75",
   "status": "partial",
   "theorems": [
    "Opinf.C75_decomposition",
    "Opinf.C75_kept_partial",
    "Opinf.C75_smallest_dropped",
    "Opinf.C75_best_basis_partial",
    "Opinf.C75_orthogonal_snapshots",
    "Opinf.C75_energy_witness",
    "Opinf.C75_single_snapshot_witness"
   ],
   "note": "False of the code: the threshold is max(minthresh, |least eigenvalue|) although only negative eigenvalues were meant to raise it, so the smallest singular value is never returned (C75_smallest_dropped), equally long orthogonal snapshots and single snapshots cannot be fitted at all (C75_orthogonal_snapshots, C75_single_snapshot_witness), and residual_energy ignores the dropped energy (C75_energy_witness). Proved: the returned triples are singular triples (C75_decomposition), which values are returned (C75_kept_partial), the basis is optimal and the exact relation between residual_energy and the error (C75_best_basis_partial)."
  },
  {
   "property": "C76",
   "status": "proved",
   "theorems": [
    "Opinf.C76_fit_recovers",
    "Opinf.C76_fit_recovers_l2",
    "Opinf.C76_not_determined",
    "Opinf.C76_discrete_recovers"
   ],
   "note": ""
  },
  {
   "property": "C77",
   "status": "proved",
   "theorems": [
    "Opinf.C77_discrete_iff",
    "Opinf.C77_discrete_errors",
    "Opinf.C77_continuous_iff",
    "Opinf.C77_continuous_errors",
    "Opinf.C77_discrete_intrusive",
    "Opinf.C77_continuous_intrusive",
    "Opinf.C77_discrete_recovers",
    "Opinf.C77_continuous_recovers",
    "Opinf.C77_discrete_reproduces"
   ],
   "note": ""
  },
  {
   "property": "C78",
   "status": "proved",
   "theorems": [
    "Opinf.C78_jacobian_is_derivative",
    "Opinf.C78_jacobian_unique",
    "Opinf.C78_jacobian_untrained"
   ],
   "note": ""
  },
  {
   "property": "C79",
   "status": "proved",
   "theorems": [
    "Opinf.C79_predict_call",
    "Opinf.C79_integrand",
    "Opinf.C79_no_inputs",
    "Opinf.C79_jacobian_choice",
    "Opinf.C79_jacobian_exact",
    "Opinf.C79_errors"
   ],
   "note": ""
  },
  {
   "property": "C80",
   "status": "proved",
   "theorems": [
    "Opinf.C80_create_iff",
    "Opinf.C80_estimate_iff",
    "Opinf.C80_estimate_inputs_iff",
    "Opinf.C80_refused",
    "Opinf.C80_mask_states",
    "Opinf.C80_mask_inputs",
    "Opinf.C80_mask_one_dimensional",
    "Opinf.C80_new_times_subset",
    "Opinf.C80_same_times",
    "Opinf.C80_exact",
    "Opinf.C80_aligns"
   ],
   "note": ""
  },
  {
   "property": "C81",
   "status": "partial",
   "theorems": [
    "Opinf.C81_verify_ok",
    "Opinf.C81_verify_error",
    "Opinf.C81_verify_passes",
    "Opinf.C81_verify_not_harmless"
   ],
   "note": "False of the code: verify() sets the new time domain to None and, in the base class, replaces the time domain, and restores them only if no exception is raised; with an interpolator that refuses the random verification data (for example options that fit only the actual number of rows) later estimates are taken at different times (C81_verify_not_harmless, C81_verify_error). Proved: a successful verify() changes nothing (C81_verify_ok), and it succeeds whenever the interpolator accepts the data (C81_verify_passes)."
  },
  {
   "property": "C82",
   "status": "partial",
   "theorems": [
    "Opinf.C82_plain",
    "Opinf.C82_l2",
    "Opinf.C82_l2_decoupled",
    "Opinf.C82_tikhonov",
    "Opinf.C82_tikhonov_decoupled",
    "Opinf.C82_tikhonov_decoupled_shapes",
    "Opinf.C82_tikhonov_method",
    "Opinf.C82_tsvd_partial",
    "Opinf.C82_tsvd_all_modes",
    "Opinf.C82_tls",
    "Opinf.C82_copy",
    "Opinf.C82_same_solution",
    "Opinf.C82_fit_savable",
    "Opinf.C82_failed_fit",
    "Opinf.C82_l2_history",
    "Opinf.C82_tikhonov_history"
   ],
   "note": "False of the code in three cases: a TruncatedSVDSolver for all modes (num_svdmodes=None) cannot be saved before fit() (C82_tsvd_all_modes); decoupled Tikhonov regularizers of different shapes, which are accepted before fit(), cannot be saved (C82_tikhonov_decoupled_shapes); after a fit() that failed in the decomposition, save() and copy() raise AttributeError (C82_failed_fit). In all three an existing file is destroyed. Otherwise proved for all classes. Options \"NULL\" are excluded by hypothesis (they are read as None). Condition numbers are not modelled."
  },
  {
   "property": "C83",
   "status": "partial",
   "theorems": [
    "Opinf.C83_fit_ready",
    "Opinf.C83_trained_copies",
    "Opinf.C83_from_models",
    "Opinf.C83_from_models_ready",
    "Opinf.C83_from_models_succeeds",
    "Opinf.C83_unsorted",
    "Opinf.C83_refused",
    "Opinf.C83_set_interpolator",
    "Opinf.C83_parametric_copy",
    "Opinf.C83_constructed_copy",
    "Opinf.C83_copy",
    "Opinf.C83_load",
    "Opinf.C83_warning",
    "Opinf.C83_not_refittable"
   ],
   "note": "False of the code with scalar parameter values that are not in increasing order and the default interpolator class: the model can be made, but copies and loading raise ValueError (C83_unsorted, proved for all such models). Proved otherwise: values at the parameters, copies, files, changes of the interpolator. Copies and loaded models cannot be trained again (C83_not_refittable)."
  },
  {
   "property": "C84",
   "status": "partial",
   "theorems": [
    "Opinf.C84_file_contents",
    "Opinf.C84_save_load",
    "Opinf.C84_trained",
    "Opinf.C84_untrained",
    "Opinf.C84_solver_lost",
    "Opinf.C84_load_errors",
    "Opinf.C84_solver_witness"
   ],
   "note": "False of the code for the solver: it is written but not read, loaded models with operators to learn have PlainSolver (C84_solver_lost for all such models, C84_solver_witness). Everything else is proved: operators, roles, dimensions, behaviour, refusals, errors."
  },
  {
   "property": "C85",
   "status": "proved",
   "theorems": [
    "Opinf.C85_l2",
    "Opinf.C85_plain",
    "Opinf.C85_tikhonov",
    "Opinf.C85_recovers"
   ],
   "note": ""
  },
  {
   "property": "C86",
   "status": "proved",
   "theorems": [
    "Opinf.C86_missing",
    "Opinf.C86_given_lhs",
    "Opinf.C86_discrete",
    "Opinf.C86_estimated",
    "Opinf.C86_estimated_inputs",
    "Opinf.C86_l2",
    "Opinf.C86_plain",
    "Opinf.C86_tikhonov",
    "Opinf.C86_reproduces",
    "Opinf.C86_initial_state_refused"
   ],
   "note": ""
  },
  {
   "property": "C87",
   "status": "partial",
   "theorems": [
    "Opinf.C87_accepted_partial",
    "Opinf.C87_refused_partial",
    "Opinf.C87_surplus_lhs",
    "Opinf.C87_surplus_inputs",
    "Opinf.C87_surplus_states",
    "Opinf.C87_surplus_inputs_discrete",
    "Opinf.C87_surplus_lhs_witness",
    "Opinf.C87_surplus_estimated_witness",
    "Opinf.C87_surplus_discrete_witness"
   ],
   "note": "False of the code: surplus left-hand sides (with lifter, time-continuous), surplus inputs (fully discrete), surplus inputs and surplus trajectories (estimated derivatives with inputs) are silently ignored (zip); each proved in general and with a witness. C87_accepted_partial characterises what is refused in all other cases; C87_refused_partial is the full claim for time-continuous models with given left-hand sides and no lifter."
  },
  {
   "property": "C88",
   "status": "partial",
   "theorems": [
    "Opinf.C88_select_partial",
    "Opinf.C88_discrete_partial",
    "Opinf.C88_interpolatory_partial",
    "Opinf.C88_unordered",
    "Opinf.C88_interpolatory_unordered",
    "Opinf.C88_predictions",
    "Opinf.C88_unordered_witness",
    "Opinf.C88_later_fit_witness",
    "Opinf.C88_discrete_scores",
    "Opinf.C88_interpolatory_discrete_partial",
    "Opinf.C88_continuous_arguments",
    "Opinf.C88_continuous_partial",
    "Opinf.C88_interpolatory_continuous_partial",
    "Opinf.C88_continuous_scores",
    "Opinf.C88_discrete_passed",
    "Opinf.C88_interpolatory_discrete_passed",
    "Opinf.C88_continuous_passed",
    "Opinf.C88_interpolatory_continuous_passed",
    "Opinf.C88_discrete_refused",
    "Opinf.C88_continuous_refused"
   ],
   "note": "False of the code in two ways, proved: with the default interpolator and scalar parameters that are not increasing the selection never succeeds although training does (C88_unordered, C88_interpolatory_unordered, witness); for interpolatory models a later fit() uses the old regularization (last clause; C88_interpolatory_partial shows the solver is the old one, witness C88_later_fit_witness). Proved otherwise: the outcome is that of training with the selected regularization, for parameters in increasing order, vector parameters or a given class of interpolators. For time-continuous models what is compared (C88_continuous_scores) is stated for integrators that give numbers."
  },
  {
   "property": "C89",
   "status": "partial",
   "theorems": [
    "Opinf.C89_accepts",
    "Opinf.C89_accepts_without_ddts",
    "Opinf.C89_shift",
    "Opinf.C89_scale",
    "Opinf.C89_null",
    "Opinf.C89_shiftscale_partial",
    "Opinf.C89_pipeline",
    "Opinf.C89_multi",
    "Opinf.C89_accepted_iff",
    "Opinf.C89_unrecovered_refused",
    "Opinf.C89_times",
    "Opinf.C89_accepted",
    "Opinf.C89_builtin_careful",
    "Opinf.C89_untrained",
    "Opinf.C89_multi_refused",
    "Opinf.C89_unscaled_byrow_refused",
    "Opinf.C89_pipeline_of_multi_refused",
    "Opinf.C89_overwriting_accepted"
   ],
   "note": "False of the code in three ways, proved: byrow without scaling is always refused (C89_unscaled_byrow_refused), so are pipelines ending in a multi-variable transformer (C89_pipeline_of_multi_refused), and an overwriting transformer is accepted (C89_overwriting_accepted). Everything else is proved."
  },
  {
   "property": "C90",
   "status": "partial",
   "theorems": [
    "Opinf.C90_outcome",
    "Opinf.C90_accepts",
    "Opinf.C90_linear",
    "Opinf.C90_pod",
    "Opinf.C90_linear_outcome",
    "Opinf.C90_multi_outcome",
    "Opinf.C90_multi",
    "Opinf.C90_accepted",
    "Opinf.C90_untrained",
    "Opinf.C90_multi_refused",
    "Opinf.C90_pod_fitted",
    "Opinf.C90_small_accepted"
   ],
   "note": "False of the code in one direction, proved: bases with small entries are accepted whatever they do (C90_small_accepted). Everything else is proved; for POD bases the singular value decomposition is taken on trust."
  },
  {
   "property": "C91",
   "status": "partial",
   "theorems": [
    "Opinf.C91_value",
    "Opinf.C91_error",
    "Opinf.C91_post",
    "Opinf.C91_zero_iff_fixed",
    "Opinf.C91_zero_iff",
    "Opinf.C91_best",
    "Opinf.C91_multi",
    "Opinf.C91_pod_residual",
    "Opinf.C91_weighted_false"
   ],
   "note": "Minimality is false of the code for bases with weights, proved (C91_weighted_false); it is proved for bases without weights (C91_best). Everything else is proved; for POD bases the singular value decomposition is taken on trust."
  },
  {
   "property": "C92",
   "status": "partial",
   "theorems": [
    "Opinf.C92_estimators_agree",
    "Opinf.C92_call_iff",
    "Opinf.C92_vector_refused",
    "Opinf.C92_type_errors",
    "Opinf.C92_integer_states_partial",
    "Opinf.C92_integer_iff",
    "Opinf.C92_integer_false"
   ],
   "note": "False of the code for states of an integer type, proved (C92_integer_false), with the exact condition for right estimates (C92_integer_iff) and a bound (C92_integer_states_partial). Everything else is proved."
  },
  {
   "property": "C93",
   "status": "partial",
   "theorems": [
    "Opinf.C93_accepted_iff",
    "Opinf.C93_time_required",
    "Opinf.C93_not_recovered",
    "Opinf.C93_vector_refused",
    "Opinf.C93_polynomial_recovers",
    "Opinf.C93_even_orders",
    "Opinf.C93_wrong_accepted",
    "Opinf.C93_coarse_refused",
    "Opinf.C93_quadratic",
    "Opinf.C93_affine_states",
    "Opinf.C93_fine_mesh",
    "Opinf.C93_mesh_refinement"
   ],
   "note": "False of the code in one direction, proved: a wrong lift_ddts() is accepted for suitable states whatever the tolerance (C93_wrong_accepted). Everything else is proved."
  },
  {
   "property": "C94",
   "status": "partial",
   "theorems": [
    "Opinf.C94_steps",
    "Opinf.C94_accepted_iff",
    "Opinf.C94_files",
    "Opinf.C94_existing_file_deleted",
    "Opinf.C94_builtin_accepted",
    "Opinf.C94_difference_bound",
    "Opinf.C94_differences_converge",
    "Opinf.C94_zero_jacobian_accepted",
    "Opinf.C94_galerkin_unchecked",
    "Opinf.C94_builtin_deletes_file",
    "Opinf.C94_small_state_refused",
    "Opinf.C94_no_entries",
    "Opinf.C94_not_static_refused",
    "Opinf.C94_classes_accepted",
    "Opinf.C94_entries_iff",
    "Opinf.C94_class_iff"
   ],
   "note": "False of the code in four respects, proved: an existing file of the temporary name is deleted, a zero Jacobian is accepted for every operator, correct quadratic operators are refused for small drawn points, classes with a non-static operator_dimension (PolynomialOperator) are refused. The exact criterion and the acceptance of the other operators of the package are proved."
  },
  {
   "property": "C95",
   "status": "partial",
   "theorems": [
    "Opinf.C95_accepted_iff",
    "Opinf.C95_unknown_dimension",
    "Opinf.C95_scalar_parameter",
    "Opinf.C95_no_state_dimension",
    "Opinf.C95_affine_accepted",
    "Opinf.C95_fresh_affine_refused",
    "Opinf.C95_interp_accepted"
   ],
   "note": "False of the code for affine operators whose parameter dimension is not known yet, proved (C95_fresh_affine_refused). Everything else is proved."
  },
  {
   "property": "C96",
   "status": "partial",
   "theorems": [
    "Opinf.C96_accepted_iff",
    "Opinf.C96_untrained",
    "Opinf.C96_files",
    "Opinf.C96_plain",
    "Opinf.C96_l2",
    "Opinf.C96_l2_decoupled",
    "Opinf.C96_tikhonov",
    "Opinf.C96_tikhonov_decoupled",
    "Opinf.C96_tsvd",
    "Opinf.C96_tls",
    "Opinf.C96_existing_file_deleted",
    "Opinf.C96_singular_refused",
    "Opinf.C96_failed_fit",
    "Opinf.C96_small_solution"
   ],
   "note": "False of the code for the files: an existing file `_solververification.h5` is deleted, proved (C96_existing_file_deleted). Everything else is proved; a fitted L2Solver with regularizer zero and singular data is refused (C96_singular_refused)."
  },
  {
   "property": "C97",
   "status": "partial",
   "theorems": [
    "Opinf.C97_shapes_iff",
    "Opinf.C97_accepted_iff",
    "Opinf.C97_failed_state",
    "Opinf.C97_reported",
    "Opinf.C97_uniform",
    "Opinf.C97_too_short",
    "Opinf.C97_grids",
    "Opinf.C97_exact_reported",
    "Opinf.C97_linear_reported",
    "Opinf.C97_misreported",
    "Opinf.C97_builtin_report",
    "Opinf.C97_report_not_errors",
    "Opinf.C97_nonuniform",
    "Opinf.C97_nonuniform_exact",
    "Opinf.C97_not_restored",
    "Opinf.C97_input_derivatives_unchecked",
    "Opinf.C97_test_derivatives",
    "Opinf.C97_nonuniform_refused"
   ],
   "note": "False of the code in three respects, each proved: the report of backward and central schemes compares derivatives at different times (C97_misreported, C97_report_not_errors); the time domain is not restored if a test problem fails (C97_not_restored); derivatives returned together with inputs are not checked (C97_input_derivatives_unchecked). The remaining parts are proved in full."
  },
  {
   "property": "C98",
   "status": "partial",
   "theorems": [
    "Opinf.C98_unique",
    "Opinf.C98_cond",
    "Opinf.C98_regcond",
    "Opinf.C98_regcond_decoupled",
    "Opinf.C98_no_singular_values",
    "Opinf.C98_untrained",
    "Opinf.C98_regcond_wide_partial",
    "Opinf.C98_tikhonov",
    "Opinf.C98_tikhonov_decoupled",
    "Opinf.C98_tcond",
    "Opinf.C98_tcond_no_modes",
    "Opinf.C98_augcond",
    "Opinf.C98_refused_fit",
    "Opinf.C98_regcond_not_cond",
    "Opinf.C98_augcond_stale"
   ],
   "note": "False of the code for underdetermined data (C98_regcond_wide_partial, C98_regcond_not_cond), for zero retained modes (C98_tcond_no_modes) and after a refused fit (C98_refused_fit, C98_augcond_stale); each is proved. The remaining parts are proved in full."
  },
  {
   "property": "C99",
   "status": "partial",
   "theorems": [
    "Opinf.C99_shift",
    "Opinf.C99_shift_column",
    "Opinf.C99_shift_back",
    "Opinf.C99_shift_refused",
    "Opinf.C99_shift_sizes",
    "Opinf.C99_shift_transformer",
    "Opinf.C99_shift_learned",
    "Opinf.C99_shift_learns_iff",
    "Opinf.C99_scale",
    "Opinf.C99_scale_back",
    "Opinf.C99_scale_learned",
    "Opinf.C99_scale_learns_iff",
    "Opinf.C99_scale_learned_refused",
    "Opinf.C99_centering",
    "Opinf.C99_minmax",
    "Opinf.C99_minmaxsym",
    "Opinf.C99_shift_broadcasts",
    "Opinf.C99_scale_decreasing"
   ],
   "note": "False of the code for shift vectors whose size broadcasts (C99_shift_sizes, C99_shift_broadcasts) and for decreasing bounds (C99_scale_decreasing); each is proved. The remaining parts are proved in full."
  },
  {
   "property": "C100",
   "status": "partial",
   "theorems": [
    "Opinf.C100_function_is_class",
    "Opinf.C100_pod_basis",
    "Opinf.C100_counts",
    "Opinf.C100_randomized_components",
    "Opinf.C100_change_solver_witness",
    "Opinf.C100_solver_names",
    "Opinf.C100_solver_labels",
    "Opinf.C100_refused_setting",
    "Opinf.C100_set_options",
    "Opinf.C100_options",
    "Opinf.C100_fit_keeps",
    "Opinf.C100_change_solver_partial",
    "Opinf.C100_change_solver_fails",
    "Opinf.C100_options_dictionary"
   ],
   "note": "False of the code when the solver of a weighted basis is changed from the method of snapshots to another one (C100_change_solver_fails, C100_change_solver_witness), for options given as a dictionary (C100_options_dictionary) and for the number of values of the randomized solver (C100_randomized_components); each is proved. The remaining parts are proved."
  },
  {
   "property": "C101",
   "status": "proved",
   "theorems": [
    "Opinf.C101_accepts_iff",
    "Opinf.C101_refused",
    "Opinf.C101_nonfinite",
    "Opinf.C101_not_an_array",
    "Opinf.C101_matrix_action",
    "Opinf.C101_tensor_action",
    "Opinf.C101_compressed_kept",
    "Opinf.C101_vectors",
    "Opinf.C101_sparse_as_dense",
    "Opinf.C101_sparse_width",
    "Opinf.C101_sparse_not_screened",
    "Opinf.C101_history",
    "Opinf.C101_usable",
    "Opinf.C101_always_usable",
    "Opinf.C101_construct"
   ],
   "note": ""
  },
  {
   "property": "C102",
   "status": "partial",
   "theorems": [
    "Opinf.C102_trained_equivalence",
    "Opinf.C102_equal_transformers_act_alike",
    "Opinf.C102_untrained_asymmetric",
    "Opinf.C102_not_reflexive",
    "Opinf.C102_multi",
    "Opinf.C102_interp_eq_iff",
    "Opinf.C102_interp_reflexive",
    "Opinf.C102_interp_act_alike_partial",
    "Opinf.C102_interp_witness",
    "Opinf.C102_basis_eq_iff",
    "Opinf.C102_basis_weights_raise",
    "Opinf.C102_basis_reflexive",
    "Opinf.C102_basis_act_alike_partial",
    "Opinf.C102_basis_witness"
   ],
   "note": "False of the code for untrained transformers (C102_untrained_asymmetric, C102_not_reflexive), for interpolated operators and for weighted bases, which are compared within tolerances (C102_interp_witness, C102_basis_witness); each is proved. Proved for trained transformers, and for interpolated operators and bases whose arrays agree exactly."
  },
  {
   "property": "C103",
   "status": "partial",
   "theorems": [
    "Opinf.C103_call",
    "Opinf.C103_evaluate",
    "Opinf.C103_evaluated_later",
    "Opinf.C103_independent_partial",
    "Opinf.C103_refused_fit",
    "Opinf.C103_copy_independent",
    "Opinf.C103_fit",
    "Opinf.C103_refit",
    "Opinf.C103_not_trained",
    "Opinf.C103_witness"
   ],
   "note": "False of the code if the model has nonparametric operators to be inferred: the evaluated model shares them (C103_witness, C103_refused_fit). Proved: independence when no nonparametric operator is inferred (C103_independent_partial), the exact contents after any calls in general (C103_evaluated_later), independence of copies, and that evaluated models cannot be trained."
  },
  {
   "property": "C104",
   "status": "proved",
   "theorems": [
    "Opinf.C104_found",
    "Opinf.C104_never_wrong",
    "Opinf.C104_compress",
    "Opinf.C104_expand",
    "Opinf.C104_round_trip",
    "Opinf.C104_limit"
   ],
   "note": ""
  },
  {
   "property": "C105",
   "status": "proved",
   "theorems": [
    "Opinf.C105_builtin",
    "Opinf.C105_builtin_failed",
    "Opinf.C105_pipeline",
    "Opinf.C105_multi",
    "Opinf.C105_nested",
    "Opinf.C105_rom",
    "Opinf.C105_failed_pipeline",
    "Opinf.C105_failed_in_place",
    "Opinf.C105_failed_not_restored"
   ],
   "note": ""
  },
  {
   "property": "C106",
   "status": "proved",
   "theorems": [
    "Opinf.C106_first",
    "Opinf.C106_first_parametric",
    "Opinf.C106_order_rhs",
    "Opinf.C106_order_predict",
    "Opinf.C106_equation",
    "Opinf.C106_letters",
    "Opinf.C106_trained",
    "Opinf.C106_shadowed",
    "Opinf.C106_order_jacobian"
   ],
   "note": ""
  },
  {
   "property": "C107",
   "status": "proved",
   "theorems": [
    "Opinf.C107_sum",
    "Opinf.C107_snapshots",
    "Opinf.C107_jacobian",
    "Opinf.C107_comm",
    "Opinf.C107_assoc",
    "Opinf.C107_refused",
    "Opinf.C107_stored",
    "Opinf.C107_merge",
    "Opinf.C107_dimensions",
    "Opinf.C107_stretched"
   ],
   "note": ""
  },
  {
   "property": "C108",
   "status": "proved",
   "theorems": [
    "Opinf.C108_l2",
    "Opinf.C108_plain",
    "Opinf.C108_plain_l2",
    "Opinf.C108_tikhonov"
   ],
   "note": ""
  },
  {
   "property": "C109",
   "status": "partial",
   "theorems": [
    "Opinf.C109_round_trip",
    "Opinf.C109_dense_refused",
    "Opinf.C109_not_saved",
    "Opinf.C109_matrix_class",
    "Opinf.C109_star_differs",
    "Opinf.C109_star_partial",
    "Opinf.C109_affine"
   ],
   "note": "Proved: format, shape and entries survive, and affine operators evaluate to the same entries (C109_round_trip, C109_affine). False of the code: the loaded object belongs to the matrix classes, so that products with * differ for arrays saved as csr_array etc. (C109_star_differs); they agree for the matrix classes (C109_star_partial)."
  },
  {
   "property": "C110",
   "status": "proved",
   "theorems": [
    "Opinf.C110_each_alone",
    "Opinf.C110_data",
    "Opinf.C110_l2",
    "Opinf.C110_plain",
    "Opinf.C110_tikhonov"
   ],
   "note": ""
  },
  {
   "property": "C111",
   "status": "proved",
   "theorems": [
    "Opinf.C111_interpolated",
    "Opinf.C111_l2",
    "Opinf.C111_plain",
    "Opinf.C111_tikhonov"
   ],
   "note": ""
  },
  {
   "property": "C112",
   "status": "proved",
   "theorems": [
    "Opinf.C112_affine",
    "Opinf.C112_pipeline",
    "Opinf.C112_multi",
    "Opinf.C112_linear_basis",
    "Opinf.C112_multi_basis",
    "Opinf.C112_training_data",
    "Opinf.C112_same_success",
    "Opinf.C112_fit",
    "Opinf.C112_fit_one",
    "Opinf.C112_uniform",
    "Opinf.C112_nonuniform",
    "Opinf.C112_transformers",
    "Opinf.C112_pod",
    "Opinf.C112_lifting_matters"
   ],
   "note": ""
  },
  {
   "property": "C113",
   "status": "proved",
   "theorems": [
    "Opinf.C113_rhs_determines",
    "Opinf.C113_rhs_determines_autonomous",
    "Opinf.C113_equal_iff_same_rhs",
    "Opinf.C113_operator_equal_iff",
    "Opinf.C113_polynomial_determines",
    "Opinf.C113_enough_snapshots",
    "Opinf.C113_too_few_snapshots",
    "Opinf.C113_design",
    "Opinf.C113_distinct_needed"
   ],
   "note": ""
  },
  {
   "property": "C114",
   "status": "proved",
   "theorems": [
    "Opinf.C114_unique",
    "Opinf.C114_compose",
    "Opinf.C114_compose_biorthogonal",
    "Opinf.C114_identity",
    "Opinf.C114_square",
    "Opinf.C114_back",
    "Opinf.C114_sum",
    "Opinf.C114_truncate",
    "Opinf.C114_model",
    "Opinf.C114_test_basis_matters"
   ],
   "note": ""
  },
  {
   "property": "C115",
   "status": "proved",
   "theorems": [
    "Opinf.C115_chosen_unique",
    "Opinf.C115_selection",
    "Opinf.C115_slice_total",
    "Opinf.C115_slice_all",
    "Opinf.C115_rows_come_back",
    "Opinf.C115_shift",
    "Opinf.C115_scale",
    "Opinf.C115_null",
    "Opinf.C115_shiftscale",
    "Opinf.C115_constructor",
    "Opinf.C115_not_calibrated",
    "Opinf.C115_transform",
    "Opinf.C115_stale_dimension"
   ],
   "note": ""
  },
  {
   "property": "C116",
   "status": "proved",
   "theorems": [
    "Opinf.C116_interpolatory_moments",
    "Opinf.C116_interpolatory_l2",
    "Opinf.C116_interpolatory_plain",
    "Opinf.C116_interpolatory_tikhonov",
    "Opinf.C116_parametric_l2",
    "Opinf.C116_parametric_plain",
    "Opinf.C116_parametric_tikhonov",
    "Opinf.C116_parametric_moments",
    "Opinf.C116_l2",
    "Opinf.C116_plain",
    "Opinf.C116_tikhonov",
    "Opinf.C116_moments",
    "Opinf.C116_mean",
    "Opinf.C116_energy",
    "Opinf.C116_determined"
   ],
   "note": ""
  },
  {
   "property": "C117",
   "status": "proved",
   "theorems": [
    "Opinf.C117_plain",
    "Opinf.C117_l2",
    "Opinf.C117_tikhonov",
    "Opinf.C117_time_unit"
   ],
   "note": ""
  },
  {
   "property": "C118",
   "status": "proved",
   "theorems": [
    "Opinf.C118_pipeline_made",
    "Opinf.C118_pipeline_dimension",
    "Opinf.C118_pipeline_empty",
    "Opinf.C118_multi_made",
    "Opinf.C118_multi_unsized",
    "Opinf.C118_builtin_settable",
    "Opinf.C118_multi_fit_sized",
    "Opinf.C118_multi_fit_unsized",
    "Opinf.C118_multi_locs",
    "Opinf.C118_prescribed_size_lost"
   ],
   "note": ""
  },
  {
   "property": "C119",
   "status": "proved",
   "theorems": [
    "Opinf.C119_coordinates",
    "Opinf.C119_predict",
    "Opinf.C119_galerkin",
    "Opinf.C119_nothing_known",
    "Opinf.C119_regularization_depends"
   ],
   "note": ""
  },
  {
   "property": "C120",
   "status": "partial",
   "theorems": [
    "Opinf.C120_explicit_partial",
    "Opinf.C120_ascending_partial",
    "Opinf.C120_default_witness",
    "Opinf.C120_dimension_witness",
    "Opinf.C120_failure_witness"
   ],
   "note": "False of the code in general: after the first fit the default interpolator class is remembered and parameters are no longer sorted (C120_default_witness), known affine operators keep the parameter dimension of the first fit (C120_dimension_witness), and a failing fit can leave an operator with entries that cannot be evaluated (C120_failure_witness). Proved for any history when all parameter values have the same dimension and either the interpolator classes are given (C120_explicit_partial) or the parameters of the last call ascend (C120_ascending_partial); assumes known interpolated operators have their interpolator."
  },
  {
   "property": "C121",
   "status": "proved",
   "theorems": [
    "Opinf.C121_commutes",
    "Opinf.C121_rhs",
    "Opinf.C121_interpolated",
    "Opinf.C121_forgets_dimension",
    "Opinf.C121_accepts_other_dimension"
   ],
   "note": ""
  },
  {
   "property": "C122",
   "status": "partial",
   "theorems": [
    "Opinf.C122_pairing_iff",
    "Opinf.C122_recovers_partial",
    "Opinf.C122_unsorted"
   ],
   "note": "The property is false of the code for singular values that are not in decreasing order (C122_unsorted); proved for decreasing singular values, with an exact characterisation (C122_pairing_iff)."
  },
  {
   "property": "C123",
   "status": "partial",
   "theorems": [
    "Opinf.C123_log",
    "Opinf.C123_attached_once",
    "Opinf.C123_buffering",
    "Opinf.C123_quiet_partial",
    "Opinf.C123_quiet_false",
    "Opinf.C123_stderr",
    "Opinf.C123_stderr_partial",
    "Opinf.C123_switch_on",
    "Opinf.C123_switch_off"
   ],
   "note": "The statements about the log files and about a constant value of rebuffer are proved without restrictions; silence under verbose = False is false of the code (C123_quiet_false, C123_stderr), as is the independence from rebuffer if it is changed inside a block (C123_switch_on, C123_switch_off)."
  },
  {
   "property": "C124",
   "status": "partial",
   "theorems": [
    "Opinf.C124_independent",
    "Opinf.C124_outcomes",
    "Opinf.C124_names_iff",
    "Opinf.C124_default_names",
    "Opinf.C124_shared_fit",
    "Opinf.C124_shared_names",
    "Opinf.C124_reused_names",
    "Opinf.C124_pipeline",
    "Opinf.C124_pipeline_shared",
    "Opinf.C124_pipeline_inconsistent",
    "Opinf.C124_multi_make",
    "Opinf.C124_multi_fit",
    "Opinf.C124_multi_shared"
   ],
   "note": "Proved for different objects, with arbitrary sequences of calls for other objects in between (C124_independent, C124_outcomes, C124_pipeline, C124_multi_make, C124_multi_fit), and an exact characterisation for names (C124_names_iff); the property is false of the code if an object occurs twice or keeps a default name from elsewhere (C124_shared_fit, C124_shared_names, C124_reused_names, C124_pipeline_shared, C124_pipeline_inconsistent, C124_multi_shared)."
  },
  {
   "property": "C125",
   "status": "proved",
   "theorems": [
    "Opinf.C125_constructor",
    "Opinf.C125_fit",
    "Opinf.C125_discrete",
    "Opinf.C125_continuous",
    "Opinf.BayesRomEx.C125_leftover_witness",
    "Opinf.C125_discrete_trajectory",
    "Opinf.C125_discrete_cases",
    "Opinf.C125_continuous_cases",
    "Opinf.C125_continuous_trajectory",
    "Opinf.C125_discrete_stable"
   ],
   "note": ""
  },
  {
   "property": "C126",
   "status": "proved",
   "theorems": [
    "Opinf.C126_centering",
    "Opinf.C126_residuals",
    "Opinf.C126_predict",
    "Opinf.C126_nothing_known",
    "Opinf.C126_incomplete_witness"
   ],
   "note": ""
  },
  {
   "property": "C127",
   "status": "proved",
   "theorems": [
    "Opinf.C127_accepts",
    "Opinf.C127_rejected",
    "Opinf.C127_interpolated_rejected",
    "Opinf.C127_dimensions"
   ],
   "note": ""
  },
  {
   "property": "C128",
   "status": "proved",
   "theorems": [
    "Opinf.C128_affine",
    "Opinf.C128_predict",
    "Opinf.C128_nothing_known"
   ],
   "note": ""
  },
  {
   "property": "C129",
   "status": "proved",
   "theorems": [
    "Opinf.C129_predict",
    "Opinf.C129_rotated",
    "Opinf.C129_rotated_predict",
    "Opinf.C129_scaled",
    "Opinf.C129_scaled_predict",
    "Opinf.C129_shiftscale"
   ],
   "note": ""
  },
  {
   "property": "C130",
   "status": "proved",
   "theorems": [
    "Opinf.C130_inputs",
    "Opinf.C130_predict",
    "Opinf.C130_nothing_known"
   ],
   "note": ""
  },
  {
   "property": "C131",
   "status": "proved",
   "theorems": [
    "Opinf.C131_orthogonal",
    "Opinf.C131_predict",
    "Opinf.C131_rom",
    "Opinf.C131_bases",
    "Opinf.C131_rotation_products"
   ],
   "note": ""
  },
  {
   "property": "C132",
   "status": "proved",
   "theorems": [
    "Opinf.C132_interpolatory_l2",
    "Opinf.C132_interpolatory_plain",
    "Opinf.C132_parametric_l2",
    "Opinf.C132_parametric_l2_operators",
    "Opinf.C132_parametric_plain",
    "Opinf.C132_parametric_plain_operators",
    "Opinf.C132_parametric_tikhonov",
    "Opinf.C132_l2",
    "Opinf.C132_plain",
    "Opinf.C132_tikhonov",
    "Opinf.C132_l2_tikhonov",
    "Opinf.C132_rom_l2",
    "Opinf.C132_rom_plain"
   ],
   "note": ""
  },
  {
   "property": "C133",
   "status": "partial",
   "theorems": [
    "Opinf.C133_any_calls",
    "Opinf.C133_successful_calls",
    "Opinf.C133_set_interpolator",
    "Opinf.C133_early_or_late",
    "Opinf.C133_evaluate",
    "Opinf.C133_cleared",
    "Opinf.C133_stale",
    "Opinf.C133_load",
    "Opinf.C133_stale_witness"
   ],
   "note": "The last sentence is false of the code: entries the interpolation library refuses are stored while the old interpolator stays (C133_stale, C133_stale_witness). Everything else is proved for all call sequences; C133_cleared shows what clearing loses."
  },
  {
   "property": "C134",
   "status": "partial",
   "theorems": [
    "Opinf.C134_any_calls",
    "Opinf.C134_constructed",
    "Opinf.C134_dimension_stays",
    "Opinf.C134_first_evaluation",
    "Opinf.C134_raising_partial",
    "Opinf.C134_set_dimension",
    "Opinf.C134_cleared_dimension",
    "Opinf.C134_cleared_forgets",
    "Opinf.C134_set_entries",
    "Opinf.C134_set_block",
    "Opinf.C134_first_evaluation_witness"
   ],
   "note": "The last sentence is false of the code: an evaluation that raises may leave a wrong parameter dimension behind (C134_first_evaluation, C134_first_evaluation_witness); C134_raising_partial proves it for all other cases. The rest is proved for all call sequences."
  }
 ]
}