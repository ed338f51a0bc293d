# Axioms per theorem

| theorem | axioms |
|---|---|
| `Emlearn.Trees.C01_convert_same_leaf` | propext, Classical.choice, Quot.sound |
| `Emlearn.Trees.C02_convert_refs_valid` | propext, Classical.choice, Quot.sound |
| `Emlearn.Trees.C02_convert_provenance` | propext, Classical.choice, Quot.sound |
| `Emlearn.Trees.C02_leaf_data_from_source` | propext, Classical.choice, Quot.sound |
| `Emlearn.Trees.C03_dedup_lossless_minimal_idempotent` | propext, Classical.choice, Quot.sound |
| `Emlearn.Trees.C04_inference_terminates_in_bounds` | propext, Classical.choice, Quot.sound |
| `Emlearn.Trees.C04_converted_inference` | propext, Classical.choice, Quot.sound |
| `Emlearn.Trees.C04_generation_accepts` | propext, Classical.choice, Quot.sound |
| `Emlearn.Trees.C05_child_encoding_partial` | propext, Classical.choice, Quot.sound |
| `Emlearn.Trees.C05_refuted` | propext, Classical.choice, Quot.sound |
| `Emlearn.Trees.C06_branch_disagreement_exact` | propext, Classical.choice, Quot.sound |
| `Emlearn.Trees.C06_tree_predicts_as_sklearn_partial` | propext, Classical.choice, Quot.sound |
| `Emlearn.Trees.C06_half_integer_thresholds` | propext, Classical.choice, Quot.sound |
| `Emlearn.Trees.C06_refuted` | propext, Classical.choice, Quot.sound |
| `Emlearn.Trees.C07_hard_vote_plurality` | propext, Classical.choice, Quot.sound |
| `Emlearn.Trees.C07_converted_plurality` | propext, Classical.choice, Quot.sound |
| `Emlearn.Trees.C08_hard_proba_distribution` | propext, Classical.choice, Quot.sound |
| `Emlearn.Trees.C08_soft_proba_mean` | propext, Classical.choice, Quot.sound |
| `Emlearn.Trees.C09_hard_inline_eq_loadable` | propext, Classical.choice, Quot.sound |
| `Emlearn.Trees.C09_soft_proba_inline_eq_loadable` | propext, Classical.choice, Quot.sound |
| `Emlearn.Trees.C09_regress_inline_eq_loadable_partial` | propext, Classical.choice, Quot.sound |
| `Emlearn.Trees.C09_regress_refuted` | propext, Classical.choice, Quot.sound |
| `Emlearn.Trees.C10_predict_reports_errors` | propext, Quot.sound |
| `Emlearn.Trees.C10_proba_regress_report_errors` | propext, Quot.sound |
| `Emlearn.Trees.C10_wrapper_refuted` | propext, Quot.sound |
| `Emlearn.Trees.C11_regress_mean` | propext, Classical.choice, Quot.sound |
| `Emlearn.Trees.C12_quantize_bounded_endpoints` | propext, Classical.choice, Quot.sound |
| `Emlearn.Trees.C12_quantize_monotone` | propext, Classical.choice, Quot.sound |
| `Emlearn.QSort.C13_qsort_sorts` | propext, Classical.choice, Quot.sound |
| `Emlearn.QSort.C14_stack_never_overflows` | propext, Classical.choice, Quot.sound |
| `Emlearn.Neighbors.C15_isqrt_exact` | propext, Classical.choice, Quot.sound |
| `Emlearn.Neighbors.C15_isqrt_domain_sharp` | propext, Classical.choice, Quot.sound |
| `Emlearn.Neighbors.C16_distance_exact` | propext, Classical.choice, Quot.sound |
| `Emlearn.Neighbors.C16_domain_sharp` | propext, Classical.choice, Quot.sound |
| `Emlearn.Neighbors.C17_predict_majority_of_k_nearest` | propext, Classical.choice, Quot.sound |
| `Emlearn.Neighbors.C17_predict_reports_errors` | propext, Quot.sound |
| `Emlearn.Neighbors.C17_stored_rows` | propext, Classical.choice, Quot.sound |
| `Emlearn.Neighbors.C17_no_neighbours` | propext, Classical.choice, Quot.sound |
| `Emlearn.Neighbors.C18_add_item_history` | propext, Classical.choice, Quot.sound |
| `Emlearn.EArray.C19_init_accepts_exactly_fitting_buffers` | propext, Classical.choice, Quot.sound |
| `Emlearn.EArray.C20_init_gives_usable_array` | propext, Classical.choice, Quot.sound |
| `Emlearn.EArray.C20_addressing` | propext, Classical.choice, Quot.sound |
| `Emlearn.EArray.C21_fill_sets_every_element` | propext, Classical.choice, Quot.sound |
| `Emlearn.EArray.C21_sum_is_total` | propext, Classical.choice, Quot.sound |
| `Emlearn.EArray.C21_fill_sum_unsupported` | propext |
| `Emlearn.EArray.C22_shift_rows` | propext, Classical.choice, Quot.sound |
| `Emlearn.EArray.C22_not_2d` | propext |
| `Emlearn.EArray.C23_copy_rows_partial` | propext, Classical.choice, Quot.sound |
| `Emlearn.EArray.C23_refuted` | propext |
| `Emlearn.EArray.C24_sliding_window` | propext, Classical.choice, Quot.sound |
| `Emlearn.Csv.C25_csv_round_trip` | propext, Classical.choice, Quot.sound |
| `Emlearn.Csv.C26_refuted` | propext, Classical.choice, Quot.sound |
| `Emlearn.Csv.C26_read_result_partial` | propext, Quot.sound |
| `Emlearn.Csv.C26_buffer_bounds` | propext, Quot.sound |
| `Emlearn.Csv.C27_refuted` | none |
| `Emlearn.Csv.C27_write_effect_partial` | propext, Quot.sound |
| `Emlearn.Quant.C28_forward_saturates_counts_monotone` | propext, Classical.choice, Quot.sound |
| `Emlearn.Quant.C29_round_trip` | propext, Classical.choice, Quot.sound |
| `Emlearn.Quant.C30_python_c_agree` | propext, Classical.choice, Quot.sound |
| `Emlearn.Quant.C31_fixed_point_conversion` | propext, Classical.choice, Quot.sound |
| `Emlearn.Quant.C32_div_nearest` | propext, Classical.choice, Quot.sound |
| `Emlearn.Quant.C32_mul_defined` | propext, Classical.choice, Quot.sound |
| `Emlearn.Quant.C32_div_zero` | none |
| `Emlearn.Quant.C32_mul_error` | propext, Classical.choice, Quot.sound |
| `Emlearn.Bayes.C33_predict_argmax_partial` | propext, Classical.choice, Quot.sound |
| `Emlearn.Bayes.C33_generated_table` | propext, Classical.choice, Quot.sound |
| `Emlearn.Bayes.C33_overflow_refuted` | propext, Classical.choice, Quot.sound |
| `Emlearn.Bayes.C34_logpdf_decreases_with_distance` | propext, Classical.choice, Quot.sound |
| `Emlearn.Bayes.C35_refuted` | propext, Classical.choice, Quot.sound |
| `Emlearn.Bayes.C35_log2fix_accurate_partial` | propext, Classical.choice, Quot.sound |
| `Emlearn.Bayes.C35_special_values` | propext, Quot.sound |
| `Emlearn.Net.C36_infer_is_composition` | propext, Classical.choice, Quot.sound |
| `Emlearn.Net.C36_wrong_length_refused` | propext, Quot.sound |
| `Emlearn.Net.C36_single_layer_refused` | propext |
| `Emlearn.Net.C36_regress_values` | propext, Classical.choice, Quot.sound |
| `Emlearn.Net.C36_layer_textbook` | propext, Classical.choice, Quot.sound |
| `Emlearn.Net.C37_history_independent` | propext, Classical.choice, Quot.sound |
| `Emlearn.Net.C38_predict_argmax` | propext, Classical.choice, Quot.sound |
| `Emlearn.Net.C38_predict_threshold` | propext, Classical.choice, Quot.sound |
| `Emlearn.Net.C38_proba_consistent_partial` | propext, Classical.choice, Quot.sound |
| `Emlearn.Net.C38_refuted` | propext, Classical.choice, Quot.sound |
| `Emlearn.Net.C38_proba_values` | propext, Classical.choice, Quot.sound |
| `Emlearn.Net.C39_softmax` | propext, Classical.choice, Quot.sound |
| `Emlearn.Net.C40_inline_infer_is_composition` | propext, Quot.sound |
| `Emlearn.Net.C40_inline_eq_loadable` | propext, Classical.choice, Quot.sound |
| `Emlearn.Net.C40_inline_length_unchecked` | propext, Classical.choice, Quot.sound |
| `Emlearn.Net.Codegen.C40_inline_generation_refuted` | propext, Classical.choice, Quot.sound |
| `Emlearn.Net.C41_refuted` | propext, Quot.sound |
| `Emlearn.Net.C41_argmax_fixed_partial` | propext, Quot.sound |
| `Emlearn.Net.C42_refuted` | propext, Classical.choice, Quot.sound |
| `Emlearn.Net.C42_keras_conversion_partial` | propext, Quot.sound |
| `Emlearn.Net.C42_refused` | propext, Quot.sound |
| `Emlearn.Distance.C43_c_quadratic_form` | propext, Classical.choice, Quot.sound |
| `Emlearn.Distance.C43_py_quadratic_form` | propext, Classical.choice, Quot.sound |
| `Emlearn.Distance.C43_c_eq_py` | propext, Classical.choice, Quot.sound |
| `Emlearn.Distance.C43_nonneg` | propext, Classical.choice, Quot.sound |
| `Emlearn.Distance.C44_c_outlier_iff` | propext, Classical.choice, Quot.sound |
| `Emlearn.Distance.C44_wrapper_agrees_partial` | propext, Classical.choice, Quot.sound |
| `Emlearn.Distance.C44_refuted` | propext, Classical.choice, Quot.sound |
| `Emlearn.Distance.C44_wrong_length_looks_like_outlier` | propext, Quot.sound |
| `Emlearn.Mixture.C45_log_proba` | propext, Classical.choice, Quot.sound |
| `Emlearn.Mixture.C45_refused` | propext |
| `Emlearn.Mixture.C45_short_input_reads_past_end` | propext, Quot.sound |
| `Emlearn.Mixture.C45_errors_reported` | propext, Classical.choice, Quot.sound |
| `Emlearn.Mixture.C45_is_gaussian` | propext, Classical.choice, Quot.sound |
| `Emlearn.Mixture.C45_score` | propext, Classical.choice, Quot.sound |
| `Emlearn.Mixture.C45_responsibilities` | propext, Classical.choice, Quot.sound |
| `Emlearn.Mixture.C46_convert_to_full` | propext, Classical.choice, Quot.sound |
| `Emlearn.Mixture.C46_wrong_shape_refused` | propext, Quot.sound |
| `Emlearn.Mixture.C46_log_det` | propext, Classical.choice, Quot.sound |
| `Emlearn.Iir.C47_difference_equation` | propext, Quot.sound |
| `Emlearn.Iir.C47_check` | propext, Quot.sound |
| `Emlearn.Iir.C47_linear` | propext, Quot.sound |
| `Emlearn.Iir.C47_causal` | propext, Quot.sound |
| `Emlearn.Fft.C48_fft_is_dft` | propext, Classical.choice, Quot.sound |
| `Emlearn.Fft.C48_rejects` | propext, Classical.choice, Quot.sound |
| `Emlearn.Fft.C48_fill_rejects` | propext, Classical.choice, Quot.sound |
| `Emlearn.Filterbank.C49_sparse_equals_dense` | propext, Classical.choice, Quot.sound |
| `Emlearn.Filterbank.C49_all_zero_filter_raises` | propext, Classical.choice, Quot.sound |
| `Emlearn.Filterbank.C49_interior_zero_fails` | propext, Classical.choice, Quot.sound |
| `Emlearn.Audio.C50_out_of_bounds_exactly` | propext, Classical.choice, Quot.sound |
| `Emlearn.Audio.C50_in_bounds_partial` | propext, Classical.choice, Quot.sound |
| `Emlearn.Audio.C50_refuted` | propext, Classical.choice, Quot.sound |
| `Emlearn.Pareto.C51_pareto_exact` | propext, Classical.choice, Quot.sound |
| `Emlearn.Pareto.C51_front_covers` | propext, Classical.choice, Quot.sound |
| `Emlearn.Benchmark.C52_step_every_state` | propext, Classical.choice, Quot.sound |
| `Emlearn.Benchmark.C52_parkmiller` | propext, Classical.choice, Quot.sound |
| `Emlearn.Benchmark.C52_fill` | propext, Classical.choice, Quot.sound |
| `Emlearn.Benchmark.C52_full_period` | propext, Classical.choice, Quot.sound |
| `Emlearn.Benchmark.C52_zero_state` | propext |
| `Emlearn.Cgen.C53_identifiers_partial` | propext, Classical.choice, Quot.sound |
| `Emlearn.Cgen.C53_identifiers_no_newline_partial` | propext, Classical.choice, Quot.sound |
| `Emlearn.Cgen.C53_refuted` | propext, Classical.choice, Quot.sound |
| `Emlearn.Cgen.C54_integer_array` | propext, Classical.choice, Quot.sound |
| `Emlearn.Cgen.C54_float_array` | propext, Classical.choice, Quot.sound |
| `Emlearn.Cgen.C54_wrong_size_refused` | propext, Classical.choice, Quot.sound |
| `Emlearn.Cgen.C54_constant` | propext, Classical.choice, Quot.sound |
| `Emlearn.Cgen.C54_declarator` | propext, Classical.choice, Quot.sound |
| `Emlearn.Cgen.C54_constant_text_refused` | propext, Classical.choice, Quot.sound |
| `Emlearn.Cgen.C54_constant_text_number` | propext, Classical.choice, Quot.sound |
| `Emlearn.Trees.C55_options_validated_partial` | propext, Classical.choice, Quot.sound |
| `Emlearn.Trees.C55_refuted` | propext |
| `Emlearn.Harness.C56_predict` | propext, Classical.choice, Quot.sound |
| `Emlearn.Harness.C56_predict_classes` | propext, Classical.choice, Quot.sound |
| `Emlearn.Harness.C56_received_close` | propext, Classical.choice, Quot.sound |
| `Emlearn.Harness.C56_narrow_enough` | propext, Classical.choice, Quot.sound |
| `Emlearn.Harness.C56_wide_refuted` | propext, Classical.choice, Quot.sound |
| `Emlearn.Harness.C57_predict_proba` | propext, Classical.choice, Quot.sound |
| `Emlearn.Harness.C57_predict_proba_success` | propext, Classical.choice, Quot.sound |
| `Emlearn.Harness.C57_stale_probabilities` | propext, Classical.choice, Quot.sound |
| `Emlearn.Motion.C58_windows` | propext, Classical.choice, Quot.sound |
| `Emlearn.Motion.C58_process` | propext, Classical.choice, Quot.sound |
| `Emlearn.Motion.C58_checks` | propext, Classical.choice, Quot.sound |
| `Emlearn.Motion.C58_bad_hop_faults` | propext, Classical.choice, Quot.sound |
| `Emlearn.Sensor.C59_every_schedule_partial` | propext, Classical.choice, Quot.sound |
| `Emlearn.Sensor.C59_calm_partial` | propext, Classical.choice, Quot.sound |
| `Emlearn.Sensor.C59_refuted` | propext, Classical.choice, Quot.sound |
| `Emlearn.Sensor.C59_keeps_up` | propext, Classical.choice, Quot.sound |
| `Emlearn.Vector.C60_vector_set` | propext, Classical.choice, Quot.sound |
| `Emlearn.Vector.C60_set_value` | propext, Classical.choice, Quot.sound |
| `Emlearn.Vector.C60_view` | propext, Quot.sound |
| `Emlearn.Vector.C60_view_unchecked` | propext, Classical.choice, Quot.sound |
| `Emlearn.Vector.C60_mean` | propext, Quot.sound |
| `Emlearn.Vector.C60_mean_empty` | propext, Quot.sound |
| `Emlearn.Trees.C61_csv_export_round_trip_partial` | propext, Classical.choice, Quot.sound |
| `Emlearn.Trees.C61_refuted` | propext |
| `Emlearn.Trees.C62_reported_size_partial` | propext, Quot.sound |
| `Emlearn.Trees.C62_refuted` | none |
| `Emlearn.Motion.C63_init` | propext, Classical.choice, Quot.sound |
| `Emlearn.Motion.C63_set_fft_features` | propext, Classical.choice, Quot.sound |
| `Emlearn.Motion.C63_get_features_partial` | propext, Classical.choice, Quot.sound |
| `Emlearn.Motion.C63_refuted` | propext, Classical.choice, Quot.sound |
| `Emlearn.ErrorStr.C64_refuted` | propext |
| `Emlearn.ErrorStr.C64_error_names_partial` | propext, Classical.choice, Quot.sound |
| `Emlearn.Quant.C65_fit_covers_range` | propext, Classical.choice, Quot.sound |
| `Emlearn.Quant.C65_unsigned_refuted` | propext, Classical.choice, Quot.sound |
| `Emlearn.Bayes.C66_refuted` | propext, Classical.choice, Quot.sound |
| `Emlearn.Bayes.C66_misuse_partial` | propext, Classical.choice, Quot.sound |
| `Emlearn.Net.C67_refuted` | propext, Classical.choice, Quot.sound |
| `Emlearn.Net.C68_mlp_conversion` | propext, Classical.choice, Quot.sound |
| `Emlearn.Net.C68_no_hidden_refused` | propext |
| `Emlearn.Mixture.C69_minmax` | propext, Quot.sound |
| `Emlearn.Mixture.C70_refuted` | propext, Classical.choice, Quot.sound |
| `Emlearn.Audio.C71_mel_scale` | propext, Classical.choice, Quot.sound |
| `Emlearn.Audio.C72_melspectrogram_partial` | propext, Classical.choice, Quot.sound |
| `Emlearn.Audio.C72_refuted` | propext, Classical.choice, Quot.sound |
| `Emlearn.Audio.C72_hann_symmetric` | propext, Classical.choice, Quot.sound |
| `Emlearn.Audio.C73_triangular_filters_partial` | propext, Classical.choice, Quot.sound |
| `Emlearn.Audio.C73_refuted` | propext, Classical.choice, Quot.sound |
| `Emlearn.Pareto.C74_find_pareto_front_partial` | propext, Classical.choice, Quot.sound |
| `Emlearn.Pareto.C74_refuted` | propext, Classical.choice, Quot.sound |
| `Emlearn.Cgen.C75_struct_declare_partial` | propext, Classical.choice, Quot.sound |
| `Emlearn.Cgen.C75_refuted` | propext, Classical.choice, Quot.sound |
| `Emlearn.Motion.C76_name_text` | propext, Classical.choice, Quot.sound |
| `Emlearn.Motion.C76_name_value` | propext, Classical.choice, Quot.sound |
| `Emlearn.Motion.C76_all_names_distinct` | propext, Classical.choice, Quot.sound |
| `Emlearn.Motion.C76_names_distinct` | propext, Classical.choice, Quot.sound |
| `Emlearn.Motion.C76_refuted` | propext, Classical.choice, Quot.sound |
| `Emlearn.Motion.C77_run` | propext, Classical.choice, Quot.sound |
| `Emlearn.Motion.C77_rejects` | propext, Classical.choice, Quot.sound |
| `Emlearn.Motion.C77_init_ready` | propext, Classical.choice, Quot.sound |
| `Emlearn.Motion.C77_orientation_unit` | propext, Classical.choice, Quot.sound |
| `Emlearn.Motion.C77_no_filter` | propext, Classical.choice, Quot.sound |
| `Emlearn.Motion.C77_magnitude_refuted` | propext, Classical.choice, Quot.sound |
| `Emlearn.Motion.C77_many_windows` | propext, Classical.choice, Quot.sound |
| `Emlearn.Motion.C77_set_gravity` | propext, Classical.choice, Quot.sound |
| `Emlearn.Neighbors.C78_check` | propext, Classical.choice, Quot.sound |
| `Emlearn.Neighbors.C78_large_refuted` | none |
| `Emlearn.Neighbors.C78_then_safe` | propext, Classical.choice, Quot.sound |
| `Emlearn.Neighbors.C79_converted_predict_partial` | propext, Classical.choice, Quot.sound |
| `Emlearn.Neighbors.C79_truncation_refuted` | propext, Classical.choice, Quot.sound |
| `Emlearn.Neighbors.C79_long_input_refuted` | propext, Classical.choice, Quot.sound |
| `Emlearn.Neighbors.C79_errors` | propext, Classical.choice, Quot.sound |
| `Emlearn.Neighbors.C79_refusals` | propext, Classical.choice, Quot.sound |
| `Emlearn.Bayes.C80_logpdf_accurate` | propext, Classical.choice, Quot.sound |
| `Emlearn.Bayes.C80_domain_sharp` | none |
| `Emlearn.Bayes.C81_predict_gaussian` | propext, Classical.choice, Quot.sound |
| `Emlearn.Bayes.C81_generated_log` | propext, Classical.choice, Quot.sound |
| `Emlearn.Bayes.C81_converted` | propext, Classical.choice, Quot.sound |
| `Emlearn.Trees.C82_self_check_partial` | propext, Quot.sound |
| `Emlearn.Trees.C82_refuted` | propext |
| `Emlearn.Trees.C82_accepts_valid` | propext, Quot.sound |
| `Emlearn.Trees.C83_soft_vote_close` | propext, Classical.choice, Quot.sound |
| `Emlearn.Trees.C83_clear_winner` | propext, Classical.choice, Quot.sound |
| `Emlearn.Trees.C83_single_tree_exact` | propext, Classical.choice, Quot.sound |
| `Emlearn.Trees.C83_class_bound_sharp` | propext, Classical.choice, Quot.sound |
| `Emlearn.Trees.C83_hard_vote_differs` | propext, Classical.choice, Quot.sound |
| `Emlearn.Net.C84_infer_safe` | propext, Classical.choice, Quot.sound |
| `Emlearn.Net.C84_predict_safe` | propext, Classical.choice, Quot.sound |
| `Emlearn.Net.C84_outputs_safe` | propext, Classical.choice, Quot.sound |
| `Emlearn.Net.C84_no_layers_refuted` | propext |
| `Emlearn.Cgen.C85_fixedpoint_array` | propext, Classical.choice, Quot.sound |
| `Emlearn.Cgen.C85_width_refused` | propext, Classical.choice, Quot.sound |
| `Emlearn.Net.Codegen.C86_generated_source_declares_network` | propext, Classical.choice, Quot.sound |
| `Emlearn.Net.Codegen.C86_generated_source_runs` | propext, Classical.choice, Quot.sound |
| `Emlearn.Net.Codegen.C86_refusals` | propext, Classical.choice, Quot.sound |
| `Emlearn.Convert.C87_dispatch_partial` | propext, Classical.choice, Quot.sound |
| `Emlearn.Convert.C87_default_refuted` | propext, Classical.choice, Quot.sound |
| `Emlearn.Convert.C87_unknown_method_refuted` | propext, Classical.choice, Quot.sound |
| `Emlearn.Convert.C87_ignored_options` | propext, Classical.choice, Quot.sound |
| `Emlearn.Convert.C87_subclass_refuted` | propext, Classical.choice, Quot.sound |
| `Emlearn.Trees.C88_inline_predict_hard` | propext, Classical.choice, Quot.sound |
| `Emlearn.Trees.C88_inline_proba_hard` | propext, Classical.choice, Quot.sound |
| `Emlearn.Trees.C88_inline_proba_soft` | propext, Classical.choice, Quot.sound |
| `Emlearn.Trees.C88_inline_predict_soft` | propext, Classical.choice, Quot.sound |
| `Emlearn.Trees.C88_inline_regress` | propext, Classical.choice, Quot.sound |
| `Emlearn.Trees.C89_loadable_struct` | propext, Classical.choice, Quot.sound |
| `Emlearn.Trees.C89_loadable_predict` | propext, Classical.choice, Quot.sound |
| `Emlearn.Trees.C89_loadable_regress` | propext, Classical.choice, Quot.sound |
| `Emlearn.Trees.C89_loadable_proba` | propext, Classical.choice, Quot.sound |
| `Emlearn.Trees.C89_end_to_end` | propext, Classical.choice, Quot.sound |
| `Emlearn.Trees.C89_names_refuted` | propext, Classical.choice, Quot.sound |
| `Emlearn.Trees.C89_end_to_end_soft` | propext, Classical.choice, Quot.sound |
| `Emlearn.Net.CText.C90_written_close` | propext, Classical.choice, Quot.sound |
| `Emlearn.Net.CText.C90_net_struct` | propext, Classical.choice, Quot.sound |
| `Emlearn.Net.CText.C90_net_predict` | propext, Classical.choice, Quot.sound |
| `Emlearn.Net.CText.C90_net_regress1` | propext, Classical.choice, Quot.sound |
| `Emlearn.Net.CText.C90_net_regress` | propext, Classical.choice, Quot.sound |
| `Emlearn.Net.CText.C90_end_to_end` | propext, Classical.choice, Quot.sound |
| `Emlearn.Net.CText.C90_names_refuted` | propext, Classical.choice, Quot.sound |
| `Emlearn.Neighbors.CText.C91_saved_model` | propext, Classical.choice, Quot.sound |
| `Emlearn.Neighbors.CText.C91_wrapper_call` | propext, Classical.choice, Quot.sound |
| `Emlearn.Neighbors.CText.C91_wrapper_predict` | propext, Classical.choice, Quot.sound |
| `Emlearn.Neighbors.CText.C91_end_to_end` | propext, Classical.choice, Quot.sound |
| `Emlearn.Neighbors.CText.C91_add_refused` | propext, Classical.choice, Quot.sound |
| `Emlearn.Neighbors.CText.C91_names_refuted` | propext, Classical.choice, Quot.sound |
| `Emlearn.Mixture.CText.C92_model` | propext, Classical.choice, Quot.sound |
| `Emlearn.Mixture.CText.C92_predict_log_proba` | propext, Classical.choice, Quot.sound |
| `Emlearn.Mixture.CText.C92_score` | propext, Classical.choice, Quot.sound |
| `Emlearn.Mixture.CText.C92_predict_proba` | propext, Classical.choice, Quot.sound |
| `Emlearn.Mixture.CText.C92_end_to_end` | propext, Classical.choice, Quot.sound |
| `Emlearn.Mixture.CText.C92_small_precision_refuted` | propext, Classical.choice, Quot.sound |
| `Emlearn.Mixture.CText.C92_names_refuted` | propext, Classical.choice, Quot.sound |
| `Emlearn.Distance.CText.C93_model` | propext, Classical.choice, Quot.sound |
| `Emlearn.Distance.CText.C93_predict` | propext, Classical.choice, Quot.sound |
| `Emlearn.Distance.CText.C93_end_to_end` | propext, Classical.choice, Quot.sound |
| `Emlearn.Distance.CText.C93_small_precision_refuted` | propext, Classical.choice, Quot.sound |
| `Emlearn.Distance.CText.C93_names_refuted` | propext, Classical.choice, Quot.sound |
| `Emlearn.Bayes.CText.C94_model` | propext, Classical.choice, Quot.sound |
| `Emlearn.Bayes.CText.C94_predict` | propext, Classical.choice, Quot.sound |
| `Emlearn.Bayes.CText.C94_out_of_range_refuted` | propext, Classical.choice, Quot.sound |
| `Emlearn.Bayes.CText.C94_end_to_end` | propext, Classical.choice, Quot.sound |
| `Emlearn.Bayes.CText.C94_names_refuted` | propext, Classical.choice, Quot.sound |
| `Emlearn.Tools.C95_wrap` | propext, Classical.choice, Quot.sound |
| `Emlearn.Tools.C95_window` | propext, Classical.choice, Quot.sound |
| `Emlearn.Tools.C95_window_default` | propext, Classical.choice, Quot.sound |
| `Emlearn.Tools.C95_narrow_refuted` | propext, Classical.choice, Quot.sound |
| `Emlearn.Tools.C95_names_refuted` | propext, Classical.choice, Quot.sound |
| `Emlearn.Tools.C95_tables` | propext, Classical.choice, Quot.sound |
| `Emlearn.Tools.C95_filterbank` | propext, Classical.choice, Quot.sound |
| `Emlearn.Tools.C95_filterbank_error` | propext, Classical.choice, Quot.sound |
| `Emlearn.Tools.C95_fmax_refuted` | propext, Classical.choice, Quot.sound |
| `Emlearn.Flt.C96_network` | propext, Classical.choice, Quot.sound |
| `Emlearn.Flt.C96_regress` | propext, Classical.choice, Quot.sound |
| `Emlearn.Flt.C96_predict` | propext, Classical.choice, Quot.sound |
| `Emlearn.Flt.C96_text` | propext, Classical.choice, Quot.sound |
| `Emlearn.Flt.C97_distance` | propext, Classical.choice, Quot.sound |
| `Emlearn.Flt.C97_outlier` | propext, Classical.choice, Quot.sound |
| `Emlearn.Flt.C97_text` | propext, Classical.choice, Quot.sound |
| `Emlearn.Flt.C98_filterbank` | propext, Classical.choice, Quot.sound |
| `Emlearn.Flt.C98_text` | propext, Classical.choice, Quot.sound |
| `Emlearn.Flt.C99_iir` | propext, Classical.choice, Quot.sound |
| `Emlearn.Flt.C99_stable` | propext, Classical.choice, Quot.sound |
| `Emlearn.Flt.C99_error` | propext, Classical.choice, Quot.sound |
| `Emlearn.Save.C100_name` | propext, Classical.choice, Quot.sound |
| `Emlearn.Save.C100_save` | propext, Classical.choice, Quot.sound |
| `Emlearn.Save.C100_net` | propext |
| `Emlearn.Save.C100_trees` | propext, Classical.choice, Quot.sound |
| `Emlearn.Save.C100_refused` | propext, Classical.choice, Quot.sound |
| `Emlearn.Save.C100_atomic_refuted` | propext, Classical.choice, Quot.sound |
| `Emlearn.Size.C101_sizes` | propext, Classical.choice, Quot.sound |
| `Emlearn.Size.C101_plain` | propext, Classical.choice, Quot.sound |
| `Emlearn.Size.C101_checked` | propext, Classical.choice, Quot.sound |
| `Emlearn.Flt.C102_fft` | propext, Classical.choice, Quot.sound |
| `Emlearn.Flt.C102_fill` | propext, Classical.choice, Quot.sound |
| `Emlearn.Flt.C103_hard_vote` | propext, Classical.choice, Quot.sound |
| `Emlearn.Flt.C103_regress` | propext, Classical.choice, Quot.sound |
| `Emlearn.Flt.C103_inline_regress` | propext, Classical.choice, Quot.sound |
| `Emlearn.Flt.C103_soft_proba` | propext, Classical.choice, Quot.sound |
| `Emlearn.Flt.C103_soft_predict` | propext, Classical.choice, Quot.sound |
| `Emlearn.Flt.C103_inline_soft_predict` | propext, Classical.choice, Quot.sound |
| `Emlearn.Flt.Binary32.C103_converted_plurality` | propext, Classical.choice, Quot.sound |
| `Emlearn.Flt.Binary32.C103_regress32` | propext, Classical.choice, Quot.sound |
| `Emlearn.Flt.Binary32.C103_soft_err32` | propext, Classical.choice, Quot.sound |
| `Emlearn.Bindings.C104_iirfilter` | propext, Quot.sound |
| `Emlearn.Bindings.C104_iirfilter_columns` | propext, Quot.sound |
| `Emlearn.Bindings.C104_iirfilter_columns_refuted` | propext, Classical.choice, Quot.sound |
| `Emlearn.Bindings.C104_rfft` | propext, Classical.choice, Quot.sound |
| `Emlearn.Bindings.C104_melfilter_partial` | propext, Classical.choice, Quot.sound |
| `Emlearn.Bindings.C104_melfilter_refuted` | propext, Classical.choice, Quot.sound |
| `Emlearn.Bindings.C104_melspectrogram_partial` | propext, Classical.choice, Quot.sound |
| `Emlearn.Bindings.C104_melspectrogram_refuted` | propext, Classical.choice, Quot.sound |
| `Emlearn.Bindings.C104_sparse_filterbank` | propext, Classical.choice, Quot.sound |
| `Emlearn.Bindings.C104_sparse_filterbank_refuted` | propext, Classical.choice, Quot.sound |
| `Emlearn.Log.C105_roundtrip_partial` | propext, Classical.choice, Quot.sound |
| `Emlearn.Log.C105_numbers` | propext, Classical.choice, Quot.sound |
| `Emlearn.Log.C105_disabled` | propext, Classical.choice, Quot.sound |
| `Emlearn.Log.C105_array` | propext, Classical.choice, Quot.sound |
| `Emlearn.Log.C105_refuted` | propext, Classical.choice, Quot.sound |
| `Emlearn.Arduino.C106_refuses` | propext, Classical.choice, Quot.sound |
| `Emlearn.Arduino.C106_frame` | propext, Classical.choice, Quot.sound |
| `Emlearn.Arduino.C106_install_partial` | propext, Classical.choice, Quot.sound |
| `Emlearn.Arduino.C106_refuted` | propext, Classical.choice, Quot.sound |
| `Emlearn.Arduino.C106_update_keeps` | propext, Classical.choice, Quot.sound |
| `Emlearn.Flt.C107_log_proba` | propext, Classical.choice, Quot.sound |
| `Emlearn.Flt.C107_lse` | propext, Classical.choice, Quot.sound |
| `Emlearn.Flt.C107_predict_proba` | propext, Classical.choice, Quot.sound |
| `Emlearn.Flt.C107_text` | propext, Classical.choice, Quot.sound |
| `Emlearn.Motion.C108_options` | propext, Classical.choice, Quot.sound |
| `Emlearn.Motion.C108_missing_value` | propext, Classical.choice, Quot.sound |
| `Emlearn.Motion.C108_every_list` | propext, Classical.choice, Quot.sound |
| `Emlearn.Motion.C108_number` | propext, Classical.choice, Quot.sound |
| `Emlearn.Motion.C108_no_input_refuted` | propext, Classical.choice, Quot.sound |
| `Emlearn.Motion.C109_process` | propext, Classical.choice, Quot.sound |
| `Emlearn.Motion.C109_refusals` | propext, Classical.choice, Quot.sound |
| `Emlearn.Motion.C109_last_line_refuted` | propext, Classical.choice, Quot.sound |
| `Emlearn.Motion.C109_short_line_refuted` | propext, Classical.choice, Quot.sound |
| `Emlearn.Trees.C110_inline_predict` | propext, Classical.choice, Quot.sound |
| `Emlearn.Trees.C110_inline_predict_soft` | propext, Classical.choice, Quot.sound |
| `Emlearn.Trees.C110_inline_proba` | propext, Classical.choice, Quot.sound |
| `Emlearn.Trees.C110_inline_proba_soft` | propext, Classical.choice, Quot.sound |
| `Emlearn.Trees.C110_inline_regress` | propext, Classical.choice, Quot.sound |
| `Emlearn.Trees.C110_loadable_predict` | propext, Classical.choice, Quot.sound |
| `Emlearn.Trees.C110_loadable_proba` | propext, Classical.choice, Quot.sound |
| `Emlearn.Trees.C110_loadable_regress` | propext, Classical.choice, Quot.sound |
| `Emlearn.Trees.C110_columns_refuted` | propext, Classical.choice, Quot.sound |
| `Emlearn.Trees.C110_columns_loadable_refuted` | propext, Classical.choice, Quot.sound |
| `Emlearn.Trees.C110_short_rows_refuted` | propext, Classical.choice, Quot.sound |
| `Emlearn.Trees.C110_loadable_soft` | propext, Classical.choice, Quot.sound |
| `Emlearn.Session.C111_tree_predict` | propext, Classical.choice, Quot.sound |
| `Emlearn.Session.C111_tree_proba` | propext, Classical.choice, Quot.sound |
| `Emlearn.Session.C111_predict_last` | propext, Classical.choice, Quot.sound |
| `Emlearn.Session.C111_proba_last` | propext, Classical.choice, Quot.sound |
| `Emlearn.Session.C111_own_until_next_partial` | propext, Classical.choice, Quot.sound |
| `Emlearn.Session.C111_own_refuted` | propext, Classical.choice, Quot.sound |
| `Emlearn.Session.C111_chdir_refuted` | propext, Classical.choice, Quot.sound |
| `Emlearn.Session.C111_types` | propext, Classical.choice, Quot.sound |
| `Emlearn.Neighbors.CText.C112_predict` | propext, Classical.choice, Quot.sound |
| `Emlearn.Neighbors.CText.C112_predict_classes_partial` | propext, Classical.choice, Quot.sound |
| `Emlearn.Neighbors.CText.C112_short_rows_refuted` | propext, Classical.choice, Quot.sound |
| `Emlearn.Neighbors.CText.C112_undefined_refuted` | propext, Classical.choice, Quot.sound |
| `Emlearn.Bayes.CText.C113_rows` | propext, Classical.choice, Quot.sound |
| `Emlearn.Bayes.CText.C113_out_of_range_refuted` | propext, Classical.choice, Quot.sound |
| `Emlearn.Bayes.CText.C113_classes_refuted` | propext, Classical.choice, Quot.sound |
| `Emlearn.Bayes.CText.C113_predict_partial` | propext, Classical.choice, Quot.sound |
| `Emlearn.Distance.CText.C114_distances` | propext, Classical.choice, Quot.sound |
| `Emlearn.Distance.CText.C114_scores` | propext, Classical.choice, Quot.sound |
| `Emlearn.Distance.CText.C114_predict_partial` | propext, Classical.choice, Quot.sound |
| `Emlearn.Distance.CText.C114_shape` | propext, Classical.choice, Quot.sound |
| `Emlearn.Distance.CText.C114_all_inliers_refuted` | propext, Classical.choice, Quot.sound |
| `Emlearn.Distance.CText.C114_boundary_refuted` | propext, Classical.choice, Quot.sound |
| `Emlearn.Net.CText.C115_predict` | propext, Classical.choice, Quot.sound |
| `Emlearn.Net.CText.C115_columns_refuted` | propext, Classical.choice, Quot.sound |
| `Emlearn.Net.CText.C115_proba` | propext, Classical.choice, Quot.sound |
| `Emlearn.Net.CText.C115_two_outputs_refuted` | propext, Quot.sound |
| `Emlearn.Net.CText.C115_proba_columns_refuted` | propext, Classical.choice, Quot.sound |
| `Emlearn.Net.CText.C115_single_layer_refuted` | propext, Classical.choice, Quot.sound |
| `Emlearn.Net.CText.C115_regress` | propext, Classical.choice, Quot.sound |
| `Emlearn.Net.CText.C115_outputs_refuted` | propext, Classical.choice, Quot.sound |
| `Emlearn.Net.CText.C115_class_partial` | propext, Classical.choice, Quot.sound |
| `Emlearn.Net.CText.C115_regress_close` | propext, Classical.choice, Quot.sound |
| `Emlearn.Mixture.CText.C116_rows` | propext, Classical.choice, Quot.sound |
| `Emlearn.Mixture.CText.C116_usage` | propext, Classical.choice, Quot.sound |
| `Emlearn.Mixture.CText.C116_columns` | propext, Classical.choice, Quot.sound |
| `Emlearn.Mixture.CText.C116_predict` | propext, Classical.choice, Quot.sound |
| `Emlearn.Mixture.CText.C116_near_best` | propext, Classical.choice, Quot.sound |
| `Emlearn.Mixture.CText.C116_score` | propext, Classical.choice, Quot.sound |
| `Emlearn.Mixture.CText.C116_empty` | propext, Classical.choice, Quot.sound |
| `Emlearn.Mixture.CText.C116_proba_close` | propext, Classical.choice, Quot.sound |
| `Emlearn.Mixture.CText.C116_score_close` | propext, Classical.choice, Quot.sound |
| `Emlearn.Mixture.CText.C116_predict_partial` | propext, Classical.choice, Quot.sound |
| `Emlearn.Mixture.CText.C116_ties_refuted` | propext, Classical.choice, Quot.sound |
| `Emlearn.Mixture.C117_exact` | propext, Classical.choice, Quot.sound |
| `Emlearn.Mixture.C117_plain` | propext, Classical.choice, Quot.sound |
| `Emlearn.Mixture.CText.C117_proba_close` | propext, Classical.choice, Quot.sound |
| `Emlearn.Mixture.CText.C117_score_close` | propext, Classical.choice, Quot.sound |
| `Emlearn.Tools.C118_header` | propext, Classical.choice, Quot.sound |
| `Emlearn.Tools.C118_exact_partial` | propext, Classical.choice, Quot.sound |
| `Emlearn.Tools.C118_silent` | propext, Classical.choice, Quot.sound |
| `Emlearn.Tools.C118_lowpass_refuted` | propext, Classical.choice, Quot.sound |
| `Emlearn.Tools.C118_default_refuted` | propext, Classical.choice, Quot.sound |
| `Emlearn.Motion.C118_gravity_lost` | propext, Classical.choice, Quot.sound |
| `Emlearn.Recorder.C119_durable` | propext, Classical.choice, Quot.sound |
| `Emlearn.Recorder.C119_complete` | propext, Classical.choice, Quot.sound |
| `Emlearn.Recorder.C119_write_samples` | propext, Classical.choice, Quot.sound |
| `Emlearn.Recorder.C119_full_refuted` | propext, Classical.choice, Quot.sound |
| `Emlearn.Recorder.C119_boot` | propext, Classical.choice, Quot.sound |
| `Emlearn.Recorder.C119_restart_refuted` | propext, Classical.choice, Quot.sound |
| `Emlearn.Recorder.C119_late_refuted` | propext, Classical.choice, Quot.sound |
| `Emlearn.Trees.C120_leaf` | propext, Classical.choice, Quot.sound |
| `Emlearn.Trees.C120_big_endian_refuted` | propext, Classical.choice, Quot.sound |
| `Emlearn.Trees.C120_converted_regress` | propext, Classical.choice, Quot.sound |
| `Emlearn.Trees.C120_aligned_refuted` | propext, Classical.choice, Quot.sound |
| `Emlearn.Trees.C120_end_to_end` | propext, Classical.choice, Quot.sound |
| `Emlearn.Trees.C120_python` | propext, Classical.choice, Quot.sound |
| `Emlearn.Quant.Flt.C121_forward` | propext, Classical.choice, Quot.sound |
| `Emlearn.Quant.Flt.C121_order` | propext, Classical.choice, Quot.sound |
| `Emlearn.Quant.Flt.C121_round_trip` | propext, Classical.choice, Quot.sound |
| `Emlearn.Quant.Flt.C121_integers_partial` | propext, Classical.choice, Quot.sound |
| `Emlearn.Quant.Flt.C121_integers_power` | propext, Classical.choice, Quot.sound |
| `Emlearn.Quant.Flt.C121_integers_refuted` | propext, Classical.choice, Quot.sound |
| `Emlearn.Quant.Flt.C121_agree_partial` | propext, Classical.choice, Quot.sound |
| `Emlearn.Quant.Flt.C121_agree_refuted` | propext, Classical.choice, Quot.sound |
| `Emlearn.Quant.Flt.C121_overflow_refuted` | propext, Classical.choice, Quot.sound |
| `Emlearn.Quant.Flt.C121_fit` | propext, Classical.choice, Quot.sound |
| `Emlearn.Quant.Flt.C121_fit_refuted` | propext, Classical.choice, Quot.sound |
| `Emlearn.Quant.Flt.C121_python_round_trip` | propext, Classical.choice, Quot.sound |
| `Emlearn.Quant.Flt.C121_inverse_agree` | propext, Classical.choice, Quot.sound |
| `Emlearn.Trees.C122_inline_predict` | propext, Classical.choice, Quot.sound |
| `Emlearn.Trees.C122_inline_regress` | propext, Classical.choice, Quot.sound |
| `Emlearn.Trees.C122_inline_proba` | propext, Classical.choice, Quot.sound |
| `Emlearn.Trees.C122_inline_share` | propext, Classical.choice, Quot.sound |
| `Emlearn.Trees.C122_inline_predict_soft` | propext, Classical.choice, Quot.sound |
| `Emlearn.Trees.C122_same_leaf` | propext, Classical.choice, Quot.sound |
| `Emlearn.Trees.C122_loadable_proba` | propext, Classical.choice, Quot.sound |
| `Emlearn.Trees.C122_trained_predict` | propext, Classical.choice, Quot.sound |
| `Emlearn.Trees.C122_trained_regress` | propext, Classical.choice, Quot.sound |
| `Emlearn.Trees.C122_same_leaf_int` | propext, Classical.choice, Quot.sound |
| `Emlearn.Trees.C122_integer_predict_partial` | propext, Classical.choice, Quot.sound |
| `Emlearn.Trees.C122_hits_refuted` | propext, Classical.choice, Quot.sound |
| `Emlearn.Trees.C122_loadable_predict_soft` | propext, Classical.choice, Quot.sound |
| `Emlearn.Trees.C122_loadable_predict` | propext, Classical.choice, Quot.sound |
| `Emlearn.Trees.C122_loadable_integer_partial` | propext, Classical.choice, Quot.sound |
| `Emlearn.SizeTool.C123_platform` | propext, Classical.choice, Quot.sound |
| `Emlearn.SizeTool.C123_processor` | propext, Classical.choice, Quot.sound |
| `Emlearn.SizeTool.C123_cleanup` | propext, Classical.choice, Quot.sound |
| `Emlearn.SizeTool.C123_run_partial` | propext, Classical.choice, Quot.sound |
| `Emlearn.SizeTool.C123_check` | propext, Classical.choice, Quot.sound |
| `Emlearn.SizeTool.C123_tools_partial` | propext, Classical.choice, Quot.sound |
| `Emlearn.SizeTool.C123_tools_refuted` | propext, Classical.choice, Quot.sound |
| `Emlearn.SizeTool.C123_include_refuted` | propext, Classical.choice, Quot.sound |
| `Emlearn.SizeTool.C123_message_refuted` | propext, Classical.choice, Quot.sound |
| `Emlearn.Motion.Flt.C124_features` | propext, Classical.choice, Quot.sound |
| `Emlearn.Motion.Flt.C124_binary32` | propext, Classical.choice, Quot.sound |
| `Emlearn.Audio.Flt.C125_melspectrogram` | propext, Classical.choice, Quot.sound |
| `Emlearn.Audio.Flt.C125_edges` | propext, Classical.choice, Quot.sound |
| `Emlearn.Audio.Flt.C125_frequencies` | propext, Classical.choice, Quot.sound |
| `Emlearn.Audio.Flt.C125_bins` | propext, Classical.choice, Quot.sound |
| `Emlearn.Audio.Flt.C125_binary32` | propext, Classical.choice, Quot.sound |
| `Emlearn.Trees.C126_hard` | propext, Classical.choice, Quot.sound |
| `Emlearn.Trees.C126_soft` | propext, Classical.choice, Quot.sound |
| `Emlearn.Trees.C126_loadable` | propext, Classical.choice, Quot.sound |
| `Emlearn.Trees.C126_inline_refuted` | propext, Classical.choice, Quot.sound |
