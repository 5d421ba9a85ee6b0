# Axioms per theorem

Written by `tools/axioms.py` from `#print axioms`.

## propext, Classical.choice, Quot.sound (803 theorems)

* `Cmomy.C01_push_vals_onto`
* `Cmomy.C01_reduce_vals_exact`
* `Cmomy.C01_reduce_vals_exact_nonneg`
* `Cmomy.C01_zero_total`
* `Cmomy.C02_push_vals_onto`
* `Cmomy.C02_reduce_vals_cov_exact`
* `Cmomy.C02_reduce_vals_cov_exact_nonneg`
* `Cmomy.C03_merge_comoments`
* `Cmomy.C03_merge_moments`
* `Cmomy.C03_push_data_merges`
* `Cmomy.C03_push_data_merges_cov`
* `Cmomy.C03_reduce_data_holds`
* `Cmomy.C03_reduce_data_holds_cov`
* `Cmomy.C04_merge_tree_equals_reduce`
* `Cmomy.C04_merge_tree_equals_reduce_cov`
* `Cmomy.C04_reduce_perm`
* `Cmomy.C04_reduce_perm_cov`
* `Cmomy.C05_reduce_ignores_zero_weight`
* `Cmomy.C05_reduce_ignores_zero_weight_cov`
* `Cmomy.C06_add_undoes_subtract`
* `Cmomy.C06_add_undoes_subtract_cov`
* `Cmomy.C06_subtract_undoes_add`
* `Cmomy.C06_subtract_undoes_add_cov`
* `Cmomy.C07_integer_scale_is_repetition`
* `Cmomy.C07_integer_scale_is_repetition_cov`
* `Cmomy.C07_scale_is_weight_multiple`
* `Cmomy.C07_scale_is_weight_multiple_cov`
* `Cmomy.C07_value_weight`
* `Cmomy.C08_push_data_order`
* `Cmomy.C08_reduce_order`
* `Cmomy.C08_reduce_order_cov`
* `Cmomy.C09_no_result_iff`
* `Cmomy.C09_no_result_iff_cov`
* `Cmomy.C09_nonneg_has_result`
* `Cmomy.C09_nonneg_has_result_cov`
* `Cmomy.C09_reduce_data_no_result_iff`
* `Cmomy.C09_reduce_data_no_result_iff_cov`
* `Cmomy.C10_affine`
* `Cmomy.C10_affine_cov`
* `Cmomy.C10_weight_scale`
* `Cmomy.C10_weight_scale_cov`
* `Cmomy.C11_cov_sq_le`
* `Cmomy.C11_even_comoments_nonneg`
* `Cmomy.C11_even_moments_nonneg`
* `Cmomy.C11_variance_zero_iff`
* `Cmomy.C12_push_into_itself`
* `Cmomy.C12_push_into_itself_cov`
* `Cmomy.C13_reads_only_owned`
* `Cmomy.C13_reads_only_owned_cov`
* `Cmomy.C13_writes_only_owned`
* `Cmomy.C13_writes_only_owned_cov`
* `Cmomy.C14_central_to_raw`
* `Cmomy.C14_low_orders`
* `Cmomy.C14_raw_to_central`
* `Cmomy.C14_roundtrip_central`
* `Cmomy.C14_roundtrip_raw`
* `Cmomy.C15_central_to_raw`
* `Cmomy.C15_raw_to_central`
* `Cmomy.C15_roundtrip_central`
* `Cmomy.C15_roundtrip_raw`
* `Cmomy.C16_comoments_to_moments`
* `Cmomy.C16_first_entry`
* `Cmomy.C16_moments_to_comoments`
* `Cmomy.C16_roundtrip`
* `Cmomy.C16_validate_accepts`
* `Cmomy.C16_validate_rejects`
* `Cmomy.C17_push_data_transpose`
* `Cmomy.C17_reduce_vals_transpose`
* `Cmomy.C18_push_data_marginals`
* `Cmomy.C18_reduce_vals_marginals`
* `Cmomy.C19_freq_roundtrip`
* `Cmomy.C19_indices_roundtrip`
* `Cmomy.C19_rejections`
* `Cmomy.C19_shuffle_invariant`
* `Cmomy.C20_resample_equals_reduce_drawn`
* `Cmomy.C20_resample_equals_reduce_drawn_cov`
* `Cmomy.C20_resample_equals_reduce_taken`
* `Cmomy.C20_resample_equals_reduce_taken_cov`
* `Cmomy.C20_row_stands_for_reweighted`
* `Cmomy.C20_row_stands_for_reweighted_cov`
* `Cmomy.C21_equals_resample_data`
* `Cmomy.C21_equals_resample_data_cov`
* `Cmomy.C21_resample_vals_is_weighted`
* `Cmomy.C21_resample_vals_is_weighted_cov`
* `Cmomy.C21_resample_vals_moments`
* `Cmomy.C21_resample_vals_moments_cov`
* `Cmomy.C22_jackknife_nonneg`
* `Cmomy.C22_jackknife_nonneg_cov`
* `Cmomy.C22_row_is_leave_one_out`
* `Cmomy.C22_row_is_leave_one_out_cov`
* `Cmomy.C22_row_missing_iff`
* `Cmomy.C22_row_missing_iff_cov`
* `Cmomy.C22_vals_equals_data`
* `Cmomy.C22_vals_equals_data_cov`
* `Cmomy.C23_cumulative_nonneg`
* `Cmomy.C23_cumulative_nonneg_cov`
* `Cmomy.C23_row_is_partial_reduction`
* `Cmomy.C23_row_is_partial_reduction_cov`
* `Cmomy.C24_inverse_undoes_cumulative`
* `Cmomy.C24_inverse_undoes_cumulative_cov`
* `Cmomy.C24_inverse_undoes_cumulative_pos`
* `Cmomy.C24_zero_weight_row_not_invertible`
* `Cmomy.C25_mixed_signs_wrong`
* `Cmomy.C25_rolling_data`
* `Cmomy.C25_rolling_data_cov`
* `Cmomy.C25_rolling_data_samples`
* `Cmomy.C25_rolling_data_samples_cov`
* `Cmomy.C25_window_positions`
* `Cmomy.C26_rolling_vals`
* `Cmomy.C26_rolling_vals_cov`
* `Cmomy.C26_rolling_vals_eq_data`
* `Cmomy.C26_rolling_vals_eq_data_cov`
* `Cmomy.C27_centred`
* `Cmomy.C27_centred_cov`
* `Cmomy.C27_centred_vals`
* `Cmomy.C27_centred_vals_cov`
* `Cmomy.C27_window_positions`
* `Cmomy.C28_adjusted`
* `Cmomy.C28_adjusted_cov`
* `Cmomy.C28_adjusted_vals`
* `Cmomy.C28_adjusted_vals_cov`
* `Cmomy.C28_vals_eq_data`
* `Cmomy.C28_vals_eq_data_cov`
* `Cmomy.C29_alpha_zero_undefined`
* `Cmomy.C29_coefs_sum`
* `Cmomy.C29_coefs_without_gaps`
* `Cmomy.C29_first_row`
* `Cmomy.C29_recursion`
* `Cmomy.C29_recursion_cov`
* `Cmomy.C29_unadjusted`
* `Cmomy.C29_unadjusted_cov`
* `Cmomy.C29_unadjusted_vals`
* `Cmomy.C29_unadjusted_vals_cov`
* `Cmomy.C30_bias_adjusted`
* `Cmomy.C30_bias_unadjusted`
* `Cmomy.C30_factor_ge_one`
* `Cmomy.C31_empty_and_negative`
* `Cmomy.C31_grouped_rows`
* `Cmomy.C31_grouped_rows_default`
* `Cmomy.C31_rejections`
* `Cmomy.C32_agrees_with_grouped`
* `Cmomy.C32_agrees_with_grouped_cov`
* `Cmomy.C32_indexed_rows`
* `Cmomy.C32_indexed_rows_cov`
* `Cmomy.C32_row_stands_for_selection`
* `Cmomy.C32_row_stands_for_selection_cov`
* `Cmomy.C32_zero_weight_first_copies`
* `Cmomy.C33_block_sizes`
* `Cmomy.C33_labels`
* `Cmomy.C34_code_is_rank`
* `Cmomy.C34_codes`
* `Cmomy.C34_index_slices`
* `Cmomy.C35_acceptance`
* `Cmomy.C35_accepted_reads_in_bounds`
* `Cmomy.C35_rejection_is_value_error`
* `Cmomy.C35_too_strict`
* `Cmomy.C36_acceptance`
* `Cmomy.C36_indexed_equals_frequency`
* `Cmomy.C36_negative_frequency_reads_garbage`
* `Cmomy.C37_defined`
* `Cmomy.C37_move_back`
* `Cmomy.C37_moveaxis_order`
* `Cmomy.C37_rejects`
* `Cmomy.C38_all_axes`
* `Cmomy.C38_imaginary_axis`
* `Cmomy.C38_imaginary_names_value_axis`
* `Cmomy.C38_imaginary_wrong_for_leading_moments`
* `Cmomy.C38_negative_name`
* `Cmomy.C38_rejects`
* `Cmomy.C38_tuple`
* `Cmomy.C38_two_names`
* `Cmomy.C39_axis_none`
* `Cmomy.C39_axis_order`
* `Cmomy.C39_axis_order_cov`
* `Cmomy.C39_empty_kept_axis_rejected`
* `Cmomy.C39_moment_axis_rejected`
* `Cmomy.C39_no_axis`
* `Cmomy.C39_one_after_another`
* `Cmomy.C39_one_after_another_cov`
* `Cmomy.C39_one_after_another_renumbered`
* `Cmomy.C39_one_after_another_renumbered_cov`
* `Cmomy.C39_reduce_axes`
* `Cmomy.C39_reduce_axes_cov`
* `Cmomy.C40_assign`
* `Cmomy.C40_assign_after_select`
* `Cmomy.C40_assign_rejects`
* `Cmomy.C40_assign_sequence`
* `Cmomy.C40_assign_twice`
* `Cmomy.C40_copy`
* `Cmomy.C40_known_names`
* `Cmomy.C40_select`
* `Cmomy.C40_select_after_assign`
* `Cmomy.C40_select_complete`
* `Cmomy.C40_select_rejects`
* `Cmomy.C40_unrelated`
* `Cmomy.C41_block`
* `Cmomy.C41_inside`
* `Cmomy.C41_known_keys`
* `Cmomy.C41_rejected`
* `Cmomy.C41_restored`
* `Cmomy.C42_seeded`
* `Cmomy.C43_memo_invisible`
* `Cmomy.C43_off`
* `Cmomy.C43_serial_request`
* `Cmomy.C43_twins`
* `Cmomy.C44_divides_by_zero`
* `Cmomy.C44_history`
* `Cmomy.C44_raises`
* `Cmomy.C44_shifted_overlap_differs`
* `Cmomy.C44_step`
* `Cmomy.C45_affine`
* `Cmomy.C45_basic_affine`
* `Cmomy.C45_basic_interval`
* `Cmomy.C45_basic_levels`
* `Cmomy.C45_basic_unsymmetric_levels_wrong`
* `Cmomy.C45_bca`
* `Cmomy.C45_bca_affine`
* `Cmomy.C45_bca_symmetric`
* `Cmomy.C45_monotone`
* `Cmomy.C45_nested`
* `Cmomy.C45_order_statistic`
* `Cmomy.C45_percentile`
* `Cmomy.C45_percentile_interval`
* `Cmomy.C45_percentile_of_score`
* `Cmomy.C45_perm`
* `Cmomy.C45_reflect`
* `Cmomy.C45_rejects`
* `Cmomy.C46_factory_same_draw`
* `Cmomy.C46_freq_succeeds`
* `Cmomy.C46_from_params`
* `Cmomy.C46_indices_succeed`
* `Cmomy.C46_never_recurses`
* `Cmomy.C46_no_replacement_fails`
* `Cmomy.C46_rejects`
* `Cmomy.C46_same_draw`
* `Cmomy.C46_shape`
* `Cmomy.C46_stable`
* `Cmomy.C47_axes_to_end`
* `Cmomy.C47_collision`
* `Cmomy.C47_idempotent`
* `Cmomy.C47_no_ellipsis`
* `Cmomy.C47_reduce_data`
* `Cmomy.C47_resample_data`
* `Cmomy.C47_same_dims`
* `Cmomy.C47_transpose_like`
* `Cmomy.C47_vals`
* `Cmomy.C48_construct`
* `Cmomy.C48_default_dims`
* `Cmomy.C48_mom_dims`
* `Cmomy.C48_mom_shape_mom`
* `Cmomy.C48_normalized_axes`
* `Cmomy.C48_order_zero_reaches_kernel`
* `Cmomy.C48_shape_mom_shape`
* `Cmomy.C48_shape_one_gives_order_zero`
* `Cmomy.C48_validate_mom`
* `Cmomy.C49_convert`
* `Cmomy.C49_convert_cov`
* `Cmomy.C49_not_enforced`
* `Cmomy.C49_push_data`
* `Cmomy.C49_push_data_cov`
* `Cmomy.C49_push_data_scale`
* `Cmomy.C49_push_data_scale_cov`
* `Cmomy.C49_push_val`
* `Cmomy.C49_push_val_cov`
* `Cmomy.C49_table`
* `Cmomy.C50_alone`
* `Cmomy.C50_completes`
* `Cmomy.C50_cumulative`
* `Cmomy.C50_cumulative_inverse`
* `Cmomy.C50_footprints`
* `Cmomy.C50_footprints_pushers`
* `Cmomy.C50_grouped`
* `Cmomy.C50_indexed`
* `Cmomy.C50_jackknife_data`
* `Cmomy.C50_jackknife_vals`
* `Cmomy.C50_one_variable`
* `Cmomy.C50_outside`
* `Cmomy.C50_progress`
* `Cmomy.C50_push_data`
* `Cmomy.C50_push_data_scale`
* `Cmomy.C50_push_val`
* `Cmomy.C50_reduce_data`
* `Cmomy.C50_reduce_data_fromzero`
* `Cmomy.C50_reduce_vals`
* `Cmomy.C50_reduce_vals_two`
* `Cmomy.C50_resample_data`
* `Cmomy.C50_resample_vals`
* `Cmomy.C50_rolling_data`
* `Cmomy.C50_rolling_exp_data`
* `Cmomy.C50_rolling_exp_vals`
* `Cmomy.C50_rolling_vals`
* `Cmomy.C50_schedule`
* `Cmomy.C50_serial_order`
* `Cmomy.C50_shared_output_races`
* `Cmomy.C50_terminates`
* `Cmomy.C50_two_variables`
* `Cmomy.C51_vals_to_data_then_reduce`
* `Cmomy.C51_vals_to_data_then_reduce_cov`
* `Cmomy.C52_block_then_reduce`
* `Cmomy.C52_block_then_reduce_cov`
* `Cmomy.C52_single_block`
* `Cmomy.C53_bca_defined`
* `Cmomy.C53_bca_hypotheses`
* `Cmomy.C53_bca_ordered`
* `Cmomy.C53_defined`
* `Cmomy.C53_finite`
* `Cmomy.C53_half`
* `Cmomy.C53_increasing`
* `Cmomy.C53_jump`
* `Cmomy.C53_ndtr`
* `Cmomy.C53_ndtr_cdf`
* `Cmomy.C53_outside`
* `Cmomy.C53_symmetric`
* `Cmomy.C54_accepts`
* `Cmomy.C54_errors`
* `Cmomy.C54_jackknife_vals`
* `Cmomy.C54_mom_axes_not_last`
* `Cmomy.C54_reduce_vals`
* `Cmomy.C54_reduce_vals_comoments`
* `Cmomy.C54_reduce_vals_moments`
* `Cmomy.C54_resample_vals`
* `Cmomy.C54_rolling_accepts`
* `Cmomy.C54_rolling_exp_alpha_wider`
* `Cmomy.C54_rolling_exp_vals`
* `Cmomy.C54_rolling_vals`
* `Cmomy.C55_axis_out_of_range`
* `Cmomy.C55_cumulative`
* `Cmomy.C55_grouped`
* `Cmomy.C55_indexed`
* `Cmomy.C55_jackknife_data`
* `Cmomy.C55_moment_axis_rejected`
* `Cmomy.C55_moments_type`
* `Cmomy.C55_resample_data`
* `Cmomy.C55_rolling_data`
* `Cmomy.C55_rolling_exp_array`
* `Cmomy.C55_rolling_exp_scalar`
* `Cmomy.C56_from_zeros`
* `Cmomy.C56_from_zeros_cov`
* `Cmomy.C56_history`
* `Cmomy.C56_history_accepts`
* `Cmomy.C56_history_cov`
* `Cmomy.C56_order`
* `Cmomy.C56_order_cov`
* `Cmomy.C56_push_data`
* `Cmomy.C56_push_data_accepts`
* `Cmomy.C56_push_data_scale`
* `Cmomy.C56_push_datas`
* `Cmomy.C56_push_datas_accepts`
* `Cmomy.C56_push_val`
* `Cmomy.C56_push_val_accepts`
* `Cmomy.C56_push_vals`
* `Cmomy.C56_push_vals_accepts`
* `Cmomy.C56_reduce_vals_agrees`
* `Cmomy.C57_cumulative`
* `Cmomy.C57_grouped`
* `Cmomy.C57_indexed`
* `Cmomy.C57_jackknife_data`
* `Cmomy.C57_moments_type`
* `Cmomy.C57_order_reduce`
* `Cmomy.C57_reduce_axis_none`
* `Cmomy.C57_reduce_data`
* `Cmomy.C57_resample_data`
* `Cmomy.C57_rolling_data`
* `Cmomy.C57_rolling_exp_data`
* `Cmomy.C57_rolling_exp_plain`
* `Cmomy.C57_select`
* `Cmomy.C57_select_many`
* `Cmomy.C58_errors`
* `Cmomy.C58_jackknife_vals`
* `Cmomy.C58_plain_same_shape`
* `Cmomy.C58_plain_shifted`
* `Cmomy.C58_reduce_vals`
* `Cmomy.C58_reduce_vals_comoments`
* `Cmomy.C58_reduce_vals_moments`
* `Cmomy.C58_resample_vals`
* `Cmomy.C58_rolling_errors`
* `Cmomy.C58_rolling_exp_vals`
* `Cmomy.C58_rolling_vals`
* `Cmomy.C59_cmom`
* `Cmomy.C59_cmom_cov`
* `Cmomy.C59_rmom`
* `Cmomy.C59_rmom_cov`
* `Cmomy.C59_stats_cov`
* `Cmomy.C59_to_raw`
* `Cmomy.C59_to_raw_cov`
* `Cmomy.C59_to_raw_weight`
* `Cmomy.C59_to_raw_weight_cov`
* `Cmomy.C59_var`
* `Cmomy.C59_var_cov`
* `Cmomy.C59_var_missing`
* `Cmomy.C59_weight_mean`
* `Cmomy.C60_axes_to_end`
* `Cmomy.C60_moveaxis`
* `Cmomy.C60_moveaxis_moment_rejected`
* `Cmomy.C60_moveaxis_to_end`
* `Cmomy.C60_resample`
* `Cmomy.C60_resample_default_axis`
* `Cmomy.C60_resample_index_error`
* `Cmomy.C60_resample_last`
* `Cmomy.C60_reshape`
* `Cmomy.C60_reshape_rejects`
* `Cmomy.C61_block_too_long`
* `Cmomy.C61_block_too_long_cov`
* `Cmomy.C61_cumulative`
* `Cmomy.C61_cumulative_cov`
* `Cmomy.C61_default_axis_rejected`
* `Cmomy.C61_indices_or_frequencies`
* `Cmomy.C61_indices_or_frequencies_cov`
* `Cmomy.C61_jackknife`
* `Cmomy.C61_jackknife_cov`
* `Cmomy.C61_reduce`
* `Cmomy.C61_reduce_block`
* `Cmomy.C61_reduce_block_cov`
* `Cmomy.C61_reduce_by`
* `Cmomy.C61_reduce_by_cov`
* `Cmomy.C61_reduce_cov`
* `Cmomy.C61_reduce_one_block`
* `Cmomy.C61_reduce_one_block_cov`
* `Cmomy.C61_resample`
* `Cmomy.C61_resample_cov`
* `Cmomy.C61_resample_indices`
* `Cmomy.C61_resample_indices_cov`
* `Cmomy.C61_resample_then_reduce`
* `Cmomy.C61_resample_then_reduce_cov`
* `Cmomy.C61_resample_wrong_size`
* `Cmomy.C61_resample_wrong_size_cov`
* `Cmomy.C61_result_is_object`
* `Cmomy.C61_result_is_object_cov`
* `Cmomy.C61_same_samples`
* `Cmomy.C61_same_samples_cov`
* `Cmomy.C62_bad_moments`
* `Cmomy.C62_raw_roundtrip`
* `Cmomy.C62_raw_roundtrip_cov`
* `Cmomy.C62_two_routes`
* `Cmomy.C62_vals_to_data`
* `Cmomy.C62_vals_to_data_count`
* `Cmomy.C62_vals_to_data_cov`
* `Cmomy.C62_vals_to_data_shapes`
* `Cmomy.C62_weights_align_differently`
* `Cmomy.C62_wrap`
* `Cmomy.C62_wrap_raw`
* `Cmomy.C62_wrap_raw_cov`
* `Cmomy.C62_wrap_raw_keeps_axes`
* `Cmomy.C62_wrap_reduce_vals`
* `Cmomy.C62_wrap_reduce_vals_cov`
* `Cmomy.C62_wrap_rejects`
* `Cmomy.C62_wrap_resample_vals`
* `Cmomy.C62_wrap_resample_vals_cov`
* `Cmomy.C62_wrap_stands`
* `Cmomy.C62_zeros`
* `Cmomy.C62_zeros_cov`
* `Cmomy.C63_concat`
* `Cmomy.C63_concat_mixed`
* `Cmomy.C63_concat_moment_axis`
* `Cmomy.C63_concat_objects`
* `Cmomy.C63_concat_reduce`
* `Cmomy.C63_concat_reduce_cov`
* `Cmomy.C63_concat_rejects`
* `Cmomy.C63_concat_samples`
* `Cmomy.C63_concat_samples_cov`
* `Cmomy.C63_getitem`
* `Cmomy.C63_getitem_checked`
* `Cmomy.C63_getitem_ellipsis`
* `Cmomy.C63_getitem_error`
* `Cmomy.C63_getitem_out_of_range`
* `Cmomy.C63_getitem_samples`
* `Cmomy.C63_getitem_samples_cov`
* `Cmomy.C63_iter`
* `Cmomy.C63_iter_scalar`
* `Cmomy.C63_moment_index_accepted`
* `Cmomy.C63_moment_index_rejected`
* `Cmomy.C63_moments_reversed`
* `Cmomy.C63_split_concat`
* `Cmomy.C64_from_zeros`
* `Cmomy.C64_from_zeros_cov`
* `Cmomy.C64_history`
* `Cmomy.C64_history_cov`
* `Cmomy.C64_push_data`
* `Cmomy.C64_push_data_refused`
* `Cmomy.C64_push_data_scale`
* `Cmomy.C64_push_datas`
* `Cmomy.C64_push_datas_plain`
* `Cmomy.C64_push_datas_refused`
* `Cmomy.C64_push_val`
* `Cmomy.C64_push_val_refused`
* `Cmomy.C64_push_vals`
* `Cmomy.C64_push_vals_plain`
* `Cmomy.C64_push_vals_refused`
* `Cmomy.C65_getitem`
* `Cmomy.C65_getitem_checked`
* `Cmomy.C65_getitem_front`
* `Cmomy.C65_getitem_too_many`
* `Cmomy.C65_isel`
* `Cmomy.C65_isel_entries`
* `Cmomy.C65_isel_moments_refused`
* `Cmomy.C65_isel_out_of_range`
* `Cmomy.C65_iter`
* `Cmomy.C65_iter_moment_first`
* `Cmomy.C65_iter_scalar`
* `Cmomy.C65_round_trip`
* `Cmomy.C65_stack`
* `Cmomy.C65_stack_records`
* `Cmomy.C65_to_array`
* `Cmomy.C65_to_array_by_position`
* `Cmomy.C65_to_array_samples`
* `Cmomy.C65_to_x`
* `Cmomy.C65_to_x_default`
* `Cmomy.C65_to_x_samples`
* `Cmomy.C65_transpose`
* `Cmomy.C65_transpose_ellipsis`
* `Cmomy.C65_transpose_incomplete`
* `Cmomy.C65_transpose_twice`
* `Cmomy.C65_zeros`
* `Cmomy.C66_add`
* `Cmomy.C66_add_cov`
* `Cmomy.C66_add_refused`
* `Cmomy.C66_block_refused`
* `Cmomy.C66_block_refused_cov`
* `Cmomy.C66_cumulative`
* `Cmomy.C66_cumulative_cov`
* `Cmomy.C66_jackknife`
* `Cmomy.C66_jackknife_cov`
* `Cmomy.C66_reduce`
* `Cmomy.C66_reduce_block`
* `Cmomy.C66_reduce_block_cov`
* `Cmomy.C66_reduce_by`
* `Cmomy.C66_reduce_by_all`
* `Cmomy.C66_reduce_by_all_cov`
* `Cmomy.C66_reduce_by_code`
* `Cmomy.C66_reduce_by_code_cov`
* `Cmomy.C66_reduce_by_code_refused`
* `Cmomy.C66_reduce_by_code_refused_cov`
* `Cmomy.C66_reduce_by_cov`
* `Cmomy.C66_reduce_by_refused`
* `Cmomy.C66_reduce_by_refused_cov`
* `Cmomy.C66_reduce_cov`
* `Cmomy.C66_reduce_one_block`
* `Cmomy.C66_reduce_one_block_cov`
* `Cmomy.C66_reduce_order`
* `Cmomy.C66_resample`
* `Cmomy.C66_resample_cov`
* `Cmomy.C66_resample_indices`
* `Cmomy.C66_resample_indices_cov`
* `Cmomy.C66_resample_wrong_size`
* `Cmomy.C66_resample_wrong_size_cov`
* `Cmomy.C66_result_is_object`
* `Cmomy.C66_result_is_object_cov`
* `Cmomy.C66_same_samples`
* `Cmomy.C66_same_samples_cov`
* `Cmomy.C66_sub`
* `Cmomy.C66_sub_cov`
* `Cmomy.C66_sub_takes_back`
* `Cmomy.C66_sub_takes_back_cov`
* `Cmomy.C67_assign`
* `Cmomy.C67_assign_mismatch`
* `Cmomy.C67_assign_refused`
* `Cmomy.C67_cmom`
* `Cmomy.C67_cmom_cov`
* `Cmomy.C67_imul`
* `Cmomy.C67_imul_cov`
* `Cmomy.C67_mean_kept`
* `Cmomy.C67_mul`
* `Cmomy.C67_mul_cov`
* `Cmomy.C67_rmom`
* `Cmomy.C67_rmom_cov`
* `Cmomy.C67_select`
* `Cmomy.C67_select_all`
* `Cmomy.C67_select_coords`
* `Cmomy.C67_select_missing`
* `Cmomy.C67_select_name_in_use`
* `Cmomy.C67_stats_cov`
* `Cmomy.C67_to_raw`
* `Cmomy.C67_to_raw_cov`
* `Cmomy.C67_to_raw_weight`
* `Cmomy.C67_to_raw_weight_cov`
* `Cmomy.C67_var`
* `Cmomy.C67_var_cov`
* `Cmomy.C67_var_kept`
* `Cmomy.C67_var_missing`
* `Cmomy.C67_weight_mean`
* `Cmomy.C68_array`
* `Cmomy.C68_array_back`
* `Cmomy.C68_array_refused`
* `Cmomy.C68_array_round_trip`
* `Cmomy.C68_back_samples`
* `Cmomy.C68_named`
* `Cmomy.C68_named_back`
* `Cmomy.C68_named_back_name_in_use`
* `Cmomy.C68_named_back_samples`
* `Cmomy.C68_named_name_in_use`
* `Cmomy.C68_named_refused`
* `Cmomy.C68_named_round_trip`
* `Cmomy.C68_named_samples`
* `Cmomy.C68_object`
* `Cmomy.C68_object_raw`
* `Cmomy.C68_object_refused`
* `Cmomy.C68_object_samples`
* `Cmomy.C69_concat`
* `Cmomy.C69_concat_moment_dim`
* `Cmomy.C69_concat_new`
* `Cmomy.C69_concat_new_samples`
* `Cmomy.C69_concat_samples`
* `Cmomy.C69_concat_sizes_refused`
* `Cmomy.C69_concat_takes_last`
* `Cmomy.C69_moveaxis`
* `Cmomy.C69_moveaxis_both_refused`
* `Cmomy.C69_moveaxis_function`
* `Cmomy.C69_moveaxis_lengths_refused`
* `Cmomy.C69_moveaxis_moment_refused`
* `Cmomy.C69_moveaxis_none_refused`
* `Cmomy.C69_moveaxis_samples`
* `Cmomy.C69_moveaxis_to_end`
* `Cmomy.C69_moveaxis_unknown`
* `Cmomy.C70_names_default`
* `Cmomy.C70_names_given`
* `Cmomy.C70_params`
* `Cmomy.C70_two_ways`
* `Cmomy.C70_vals_to_data`
* `Cmomy.C70_vals_to_data_count`
* `Cmomy.C70_vals_to_data_cov`
* `Cmomy.C70_vals_to_data_sizes`
* `Cmomy.C70_wrap`
* `Cmomy.C70_wrap_raw`
* `Cmomy.C70_wrap_raw_cov`
* `Cmomy.C70_wrap_reduce_vals`
* `Cmomy.C70_wrap_reduce_vals_cov`
* `Cmomy.C70_wrap_refused`
* `Cmomy.C70_wrap_resample_vals`
* `Cmomy.C70_wrap_resample_vals_cov`
* `Cmomy.C71_array`
* `Cmomy.C71_empty_refused`
* `Cmomy.C71_lengths_refused`
* `Cmomy.C71_one_dimension`
* `Cmomy.C71_params_kept`
* `Cmomy.C71_rolling_data`
* `Cmomy.C71_rolling_data_cov`
* `Cmomy.C71_same`
* `Cmomy.C71_same_cov`
* `Cmomy.C71_samples`
* `Cmomy.C71_samples_cov`
* `Cmomy.C71_stride_refused`
* `Cmomy.C71_window_refused`
* `Cmomy.C71_windows`
* `Cmomy.C72_cumulative`
* `Cmomy.C72_grouped`
* `Cmomy.C72_indexed`
* `Cmomy.C72_jackknife_data`
* `Cmomy.C72_jackknife_vals`
* `Cmomy.C72_moments_type`
* `Cmomy.C72_reduce_array`
* `Cmomy.C72_reduce_array_nothing`
* `Cmomy.C72_reduce_data`
* `Cmomy.C72_reduce_nothing`
* `Cmomy.C72_resample_data`
* `Cmomy.C72_resample_vals`
* `Cmomy.C72_resample_vals_extra`
* `Cmomy.C72_rolling_center`
* `Cmomy.C72_rolling_data`
* `Cmomy.C72_rolling_exp_data`
* `Cmomy.C72_rolling_exp_plain`
* `Cmomy.C72_rolling_exp_vals`
* `Cmomy.C72_rolling_vals`
* `Cmomy.C72_rolling_vals_center`
* `Cmomy.C73_cumulative`
* `Cmomy.C73_grouped`
* `Cmomy.C73_indexed`
* `Cmomy.C73_jackknife_data`
* `Cmomy.C73_moments_type`
* `Cmomy.C73_reduce_data`
* `Cmomy.C73_reduce_map`
* `Cmomy.C73_resample_data`
* `Cmomy.C73_rolling_data`
* `Cmomy.C73_rolling_exp_plain`
* `Cmomy.C73_unknown_dim`
* `Cmomy.C74_block`
* `Cmomy.C74_block_group`
* `Cmomy.C74_by_coord`
* `Cmomy.C74_by_coord_group`
* `Cmomy.C74_by_coord_group_cov`
* `Cmomy.C74_cumulative`
* `Cmomy.C74_first_unstable`
* `Cmomy.C74_grouped`
* `Cmomy.C74_indexed`
* `Cmomy.C74_indexed_group`
* `Cmomy.C74_jackknife_data`
* `Cmomy.C74_moments_type`
* `Cmomy.C74_reduce_by`
* `Cmomy.C74_reduce_data`
* `Cmomy.C74_resample_data`
* `Cmomy.C74_rolling_data`
* `Cmomy.C74_rolling_exp_data`
* `Cmomy.C75_average_outside`
* `Cmomy.C75_constant`
* `Cmomy.C75_constant_cov`
* `Cmomy.C75_constant_reduce`
* `Cmomy.C75_count`
* `Cmomy.C75_count_stops`
* `Cmomy.C75_digits`
* `Cmomy.C75_digits_error`
* `Cmomy.C75_digits_sub`
* `Cmomy.C75_digits_units`
* `Cmomy.C75_exact`
* `Cmomy.C75_first`
* `Cmomy.C75_float32`
* `Cmomy.C75_float64`
* `Cmomy.C75_jackknife_negative`
* `Cmomy.C75_negate`
* `Cmomy.C75_rolling_negative`
* `Cmomy.C75_rounding_modes`
* `Cmomy.C75_units`
* `Cmomy.C75_units_cov`
* `Cmomy.C75_variance`
* `Cmomy.C75_variance_cov`
* `Cmomy.C75_weight_error`
* `Cmomy.C75_weight_exact`
* `Cmomy.C75_weight_grows`
* `Cmomy.C75_within`
* `Cmomy.C76_digits`
* `Cmomy.C76_float32`
* `Cmomy.C76_float64`
* `Cmomy.C76_records`
* `Cmomy.C76_reduce_data`
* `Cmomy.C76_reduce_vals`
* `Cmomy.C76_resample_data`
* `Cmomy.C76_resample_vals`
* `Cmomy.C77_booleans`
* `Cmomy.C77_convQ`
* `Cmomy.C77_data`
* `Cmomy.C77_dataset`
* `Cmomy.C77_default`
* `Cmomy.C77_direct`
* `Cmomy.C77_given`
* `Cmomy.C77_imposed`
* `Cmomy.C77_integers`
* `Cmomy.C77_labelled`
* `Cmomy.C77_once`
* `Cmomy.C77_push_imposed`
* `Cmomy.C77_push_nothing`
* `Cmomy.C77_push_vals`
* `Cmomy.C77_reduce_nothing`
* `Cmomy.C77_reduce_nothing2`
* `Cmomy.C77_usual`
* `Cmomy.C77_values`
* `Cmomy.C78_back_and_there`
* `Cmomy.C78_moment_refused`
* `Cmomy.C78_reduce`
* `Cmomy.C78_split`
* `Cmomy.C78_stack`
* `Cmomy.C78_stack_refused`
* `Cmomy.C78_there_and_back`
* `Cmomy.C78_to_dataset_refused`
* `Cmomy.C78_whole`
* `Cmomy.C79_records`
* `Cmomy.C79_reduce_data`
* `Cmomy.C79_reduce_vals`
* `Cmomy.C79_resample_data`
* `Cmomy.C79_resample_vals`
* `Cmomy.C80_assign`
* `Cmomy.C80_assign_get`
* `Cmomy.C80_construct`
* `Cmomy.C80_cumulative_get`
* `Cmomy.C80_get`
* `Cmomy.C80_get_key`
* `Cmomy.C80_get_list`
* `Cmomy.C80_get_list_get`
* `Cmomy.C80_reduce_get`
* `Cmomy.C80_reduce_keys`
* `Cmomy.C81_cumulative`
* `Cmomy.C81_groups`
* `Cmomy.C81_push_data`
* `Cmomy.C81_tree`
* `Cmomy.C82_stack_unstack`
* `Cmomy.C82_unstack`
* `Cmomy.C83_order`
* `Cmomy.C83_sel`
* `Cmomy.C84_isel_reduce`
* `Cmomy.C84_stack_other`
* `Cmomy.C84_stack_reduce`
* `Cmomy.C85_cumulative`
* `Cmomy.C85_grouped`
* `Cmomy.C85_indexed`
* `Cmomy.C85_jackknife`
* `Cmomy.C85_resample`
* `Cmomy.C85_rolling`
* `Cmomy.C85_rolling_exp`
* `Cmomy.C86_alone`
* `Cmomy.C86_basic`
* `Cmomy.C86_bca`
* `Cmomy.C86_bca_succeeds`
* `Cmomy.C86_each_place`
* `Cmomy.C86_number_as_estimate`
* `Cmomy.C86_percentile`
* `Cmomy.C86_succeeds`
* `Cmomy.C87_basic`
* `Cmomy.C87_bca`
* `Cmomy.C87_bca_succeeds`
* `Cmomy.C87_each_place`
* `Cmomy.C87_method_case`
* `Cmomy.C87_missing`
* `Cmomy.C87_order`
* `Cmomy.C87_percentile`
* `Cmomy.C87_succeeds`
* `Cmomy.C87_unused`

## propext, Quot.sound (73 theorems)

* `Cmomy.C05_zero_weight_push`
* `Cmomy.C05_zero_weight_push_cov`
* `Cmomy.C20_zero_weight_draw_copies_first`
* `Cmomy.C30_missing_iff`
* `Cmomy.C32_wrong_scale_length`
* `Cmomy.C33_degenerate`
* `Cmomy.C38_int_axis`
* `Cmomy.C42_get`
* `Cmomy.C42_seed_replaces`
* `Cmomy.C43_factory_stale_serial`
* `Cmomy.C44_operator_errors`
* `Cmomy.C44_start`
* `Cmomy.C44_untouched`
* `Cmomy.C46_labelled_ignores_replace`
* `Cmomy.C47_unique`
* `Cmomy.C48_factory_good`
* `Cmomy.C48_from_params`
* `Cmomy.C49_table_unique`
* `Cmomy.C51_row_is_single_value`
* `Cmomy.C51_row_is_single_value_cov`
* `Cmomy.C56_zeros`
* `Cmomy.C56_zeros_cov`
* `Cmomy.C57_order`
* `Cmomy.C58_order`
* `Cmomy.C58_plain_small`
* `Cmomy.C60_cells_keep_samples`
* `Cmomy.C60_cells_keep_samples_cov`
* `Cmomy.C62_axis_needed`
* `Cmomy.C62_wrong_count`
* `Cmomy.C65_getitem_front_too_many`
* `Cmomy.C65_keep_samples`
* `Cmomy.C65_rename`
* `Cmomy.C65_rename_moment_breaks`
* `Cmomy.C65_stack_moment_refused`
* `Cmomy.C65_to_x_dims_refused`
* `Cmomy.C65_to_x_mom_dims_refused`
* `Cmomy.C65_transpose_unknown`
* `Cmomy.C66_add_shape_refused`
* `Cmomy.C66_missing_label_refused`
* `Cmomy.C66_reduce_steps`
* `Cmomy.C66_result_dims`
* `Cmomy.C67_from_samples`
* `Cmomy.C67_from_samples_cov`
* `Cmomy.C68_named_object_refused`
* `Cmomy.C70_names_object`
* `Cmomy.C70_vals_to_data_taken`
* `Cmomy.C70_zeros`
* `Cmomy.C70_zeros_cov`
* `Cmomy.C71_selection_refused`
* `Cmomy.C72_reduce_vals`
* `Cmomy.C73_arguments`
* `Cmomy.C73_own_table`
* `Cmomy.C73_reduce_unknown`
* `Cmomy.C73_unpaired`
* `Cmomy.C74_by_unknown`
* `Cmomy.C77_astype`
* `Cmomy.C77_complex`
* `Cmomy.C77_construct`
* `Cmomy.C77_construct_refused`
* `Cmomy.C77_data_type`
* `Cmomy.C77_dataset_refused`
* `Cmomy.C77_push_val`
* `Cmomy.C77_refused`
* `Cmomy.C77_type`
* `Cmomy.C77_vals_to_data`
* `Cmomy.C78_no_moments`
* `Cmomy.C78_split_record`
* `Cmomy.C78_stack_record`
* `Cmomy.C81_levels`
* `Cmomy.C82_duplicates`
* `Cmomy.C82_missing`
* `Cmomy.C83_missing`
* `Cmomy.C83_unknown`

## propext (27 theorems)

* `Cmomy.C41_overlapping_not_restored`
* `Cmomy.C42_generator_untouched`
* `Cmomy.C42_none_is_stable`
* `Cmomy.C42_set`
* `Cmomy.C43_factory_stale_parallel`
* `Cmomy.C43_thread_check_once`
* `Cmomy.C46_both_tables_unchecked`
* `Cmomy.C46_factory`
* `Cmomy.C46_factory_shuffle_lost`
* `Cmomy.C46_fastpath_recurses`
* `Cmomy.C46_from_data`
* `Cmomy.C48_axes_silently_ignored`
* `Cmomy.C48_axes_unchecked`
* `Cmomy.C48_dims_unchecked`
* `Cmomy.C48_factory`
* `Cmomy.C48_from_params_error`
* `Cmomy.C57_select_dataset`
* `Cmomy.C63_concat_axis_error`
* `Cmomy.C65_isel_unknown`
* `Cmomy.C65_stack_name_in_use`
* `Cmomy.C65_to_x_template`
* `Cmomy.C70_names_dict`
* `Cmomy.C71_array_mom_params`
* `Cmomy.C71_no_params`
* `Cmomy.C71_params`
* `Cmomy.C80_as_dict`
* `Cmomy.C80_keys_values`
