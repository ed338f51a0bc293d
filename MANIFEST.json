{
 "claims": [
  {
   "property": "C01",
   "status": "proved",
   "theorems": [
    "Emlearn.Trees.C01_convert_same_leaf"
   ],
   "note": "All source trees (arbitrary shape), all comparisons; model of flatten_tree/flatten_forest/remove_duplicate_leaves."
  },
  {
   "property": "C02",
   "status": "proved",
   "theorems": [
    "Emlearn.Trees.C02_convert_refs_valid",
    "Emlearn.Trees.C02_convert_provenance",
    "Emlearn.Trees.C02_leaf_data_from_source"
   ],
   "note": "References valid and every node/leaf referenced, for every converted forest."
  },
  {
   "property": "C03",
   "status": "proved",
   "theorems": [
    "Emlearn.Trees.C03_dedup_lossless_minimal_idempotent"
   ],
   "note": "Prediction-preserving, pairwise distinct leaves, not more leaves, idempotent."
  },
  {
   "property": "C04",
   "status": "proved",
   "theorems": [
    "Emlearn.Trees.C04_inference_terminates_in_bounds",
    "Emlearn.Trees.C04_converted_inference",
    "Emlearn.Trees.C04_generation_accepts"
   ],
   "note": "Loop termination bound and in-bounds reads of nodes, features and leaves for every generated table."
  },
  {
   "property": "C05",
   "status": "partial",
   "theorems": [
    "Emlearn.Trees.C05_child_encoding_partial",
    "Emlearn.Trees.C05_refuted"
   ],
   "note": "Full claim is false: a forward jump of exactly 32768 is accepted and wraps (C05_refuted); proved for all jumps the encoder can represent."
  },
  {
   "property": "C06",
   "status": "partial",
   "theorems": [
    "Emlearn.Trees.C06_branch_disagreement_exact",
    "Emlearn.Trees.C06_tree_predicts_as_sklearn_partial",
    "Emlearn.Trees.C06_half_integer_thresholds",
    "Emlearn.Trees.C06_refuted"
   ],
   "note": "Full claim is false: x < int(t) differs from x <= t exactly at characterised points (C06_branch_disagreement_exact, C06_refuted); agreement proved outside them and for half-integer thresholds."
  },
  {
   "property": "C07",
   "status": "proved",
   "theorems": [
    "Emlearn.Trees.C07_hard_vote_plurality",
    "Emlearn.Trees.C07_converted_plurality"
   ],
   "note": "Plurality with lowest index on ties, for generated and for arbitrary valid tables."
  },
  {
   "property": "C08",
   "status": "proved",
   "theorems": [
    "Emlearn.Trees.C08_hard_proba_distribution",
    "Emlearn.Trees.C08_soft_proba_mean"
   ],
   "note": "Exact arithmetic over an ordered field; rounding is covered by C103."
  },
  {
   "property": "C09",
   "status": "partial",
   "theorems": [
    "Emlearn.Trees.C09_hard_inline_eq_loadable",
    "Emlearn.Trees.C09_soft_proba_inline_eq_loadable",
    "Emlearn.Trees.C09_regress_inline_eq_loadable_partial",
    "Emlearn.Trees.C09_regress_refuted"
   ],
   "note": "Class and probabilities agree; regression values are printed with 6 decimals in inline code so full equality is false (C09_regress_refuted); proved for leaf values the text represents."
  },
  {
   "property": "C10",
   "status": "partial",
   "theorems": [
    "Emlearn.Trees.C10_predict_reports_errors",
    "Emlearn.Trees.C10_proba_regress_report_errors",
    "Emlearn.Trees.C10_wrapper_refuted"
   ],
   "note": "C API part proved; the Python predict wrapper turns error codes into class numbers (C10_wrapper_refuted)."
  },
  {
   "property": "C11",
   "status": "proved",
   "theorems": [
    "Emlearn.Trees.C11_regress_mean"
   ],
   "note": "Exact arithmetic over an ordered field."
  },
  {
   "property": "C12",
   "status": "proved",
   "theorems": [
    "Emlearn.Trees.C12_quantize_bounded_endpoints",
    "Emlearn.Trees.C12_quantize_monotone"
   ],
   "note": "Exact arithmetic; bounds, endpoints and monotonicity."
  },
  {
   "property": "C13",
   "status": "proved",
   "theorems": [
    "Emlearn.QSort.C13_qsort_sorts"
   ],
   "note": "Permutation, sortedness, termination and in-bounds for every array of fewer than 2^36 elements (the fixed stack of 32 entries; array lengths are int in the code), over any strict weak order."
  },
  {
   "property": "C14",
   "status": "proved",
   "theorems": [
    "Emlearn.QSort.C14_stack_never_overflows"
   ],
   "note": "Stack depth at most 32 for N < 2^32."
  },
  {
   "property": "C15",
   "status": "proved",
   "theorems": [
    "Emlearn.Neighbors.C15_isqrt_exact",
    "Emlearn.Neighbors.C15_isqrt_domain_sharp"
   ],
   "note": "Exact on [0, 2^30) and proved sharp: outside it the real code overflows or loops."
  },
  {
   "property": "C16",
   "status": "proved",
   "theorems": [
    "Emlearn.Neighbors.C16_distance_exact",
    "Emlearn.Neighbors.C16_domain_sharp"
   ],
   "note": "Exact below 2^30 and sharp."
  },
  {
   "property": "C17",
   "status": "proved",
   "theorems": [
    "Emlearn.Neighbors.C17_predict_majority_of_k_nearest",
    "Emlearn.Neighbors.C17_predict_reports_errors",
    "Emlearn.Neighbors.C17_stored_rows",
    "Emlearn.Neighbors.C17_no_neighbours"
   ],
   "note": "Majority label of a set of k nearest, smallest on ties; error branches covered."
  },
  {
   "property": "C18",
   "status": "proved",
   "theorems": [
    "Emlearn.Neighbors.C18_add_item_history"
   ],
   "note": "Any sequence of add_item calls."
  },
  {
   "property": "C19",
   "status": "proved",
   "theorems": [
    "Emlearn.EArray.C19_init_accepts_exactly_fitting_buffers"
   ],
   "note": "Iff characterisation of accepted initialisations."
  },
  {
   "property": "C20",
   "status": "proved",
   "theorems": [
    "Emlearn.EArray.C20_init_gives_usable_array",
    "Emlearn.EArray.C20_addressing"
   ],
   "note": "NULL iff out of range; in bounds; disjoint."
  },
  {
   "property": "C21",
   "status": "proved",
   "theorems": [
    "Emlearn.EArray.C21_fill_sets_every_element",
    "Emlearn.EArray.C21_sum_is_total",
    "Emlearn.EArray.C21_fill_sum_unsupported"
   ],
   "note": "int16 arrays; unsupported element sizes rejected."
  },
  {
   "property": "C22",
   "status": "proved",
   "theorems": [
    "Emlearn.EArray.C22_shift_rows",
    "Emlearn.EArray.C22_not_2d"
   ],
   "note": "All shifts, accepted and rejected."
  },
  {
   "property": "C23",
   "status": "partial",
   "theorems": [
    "Emlearn.EArray.C23_copy_rows_partial",
    "Emlearn.EArray.C23_refuted"
   ],
   "note": "Full claim false because element size is not compared (C23_refuted); proved for equal element sizes."
  },
  {
   "property": "C24",
   "status": "proved",
   "theorems": [
    "Emlearn.EArray.C24_sliding_window"
   ],
   "note": "Any sequence of chunks."
  },
  {
   "property": "C25",
   "status": "proved",
   "theorems": [
    "Emlearn.Csv.C25_csv_round_trip"
   ],
   "note": "Any formatter producing clean non-empty text shorter than 20 characters; any buffers long enough for a line; whole-file round trip."
  },
  {
   "property": "C26",
   "status": "partial",
   "theorems": [
    "Emlearn.Csv.C26_refuted",
    "Emlearn.Csv.C26_read_result_partial",
    "Emlearn.Csv.C26_buffer_bounds"
   ],
   "note": "False as stated: too few column pointers returns +1 (C26_refuted). Partial: with enough column pointers the outcomes are exactly characterised."
  },
  {
   "property": "C27",
   "status": "partial",
   "theorems": [
    "Emlearn.Csv.C27_refuted",
    "Emlearn.Csv.C27_write_effect_partial"
   ],
   "note": "False as stated: fields before a too long one are already written (C27_refuted). Partial: exact effect of every call."
  },
  {
   "property": "C28",
   "status": "proved",
   "theorems": [
    "Emlearn.Quant.C28_forward_saturates_counts_monotone"
   ],
   "note": "Exact arithmetic."
  },
  {
   "property": "C29",
   "status": "proved",
   "theorems": [
    "Emlearn.Quant.C29_round_trip"
   ],
   "note": "Exact arithmetic."
  },
  {
   "property": "C30",
   "status": "proved",
   "theorems": [
    "Emlearn.Quant.C30_python_c_agree"
   ],
   "note": "Exact arithmetic; also inverse directions for codes in [-32767,32767]."
  },
  {
   "property": "C31",
   "status": "proved",
   "theorems": [
    "Emlearn.Quant.C31_fixed_point_conversion"
   ],
   "note": "Exact arithmetic."
  },
  {
   "property": "C32",
   "status": "proved",
   "theorems": [
    "Emlearn.Quant.C32_div_nearest",
    "Emlearn.Quant.C32_mul_defined",
    "Emlearn.Quant.C32_div_zero",
    "Emlearn.Quant.C32_mul_error"
   ],
   "note": "All integers; condition that the quotient fits 32 bits / the int product does not overflow."
  },
  {
   "property": "C33",
   "status": "partial",
   "theorems": [
    "Emlearn.Bayes.C33_predict_argmax_partial",
    "Emlearn.Bayes.C33_generated_table",
    "Emlearn.Bayes.C33_overflow_refuted"
   ],
   "note": "False as stated: the class scores are 32-bit fixed point and the density of a class more than 181 standard deviations away overflows (C33_overflow_refuted, a generated model of two separated classes). Proved: no access out of bounds ever, and whenever no arithmetic overflows the answer is the first arg-max; C81 shows no overflow happens in its domain. Plus the generated table layout."
  },
  {
   "property": "C34",
   "status": "proved",
   "theorems": [
    "Emlearn.Bayes.C34_logpdf_decreases_with_distance"
   ],
   "note": "Within the no-overflow range, as the property says."
  },
  {
   "property": "C35",
   "status": "partial",
   "theorems": [
    "Emlearn.Bayes.C35_refuted",
    "Emlearn.Bayes.C35_log2fix_accurate_partial",
    "Emlearn.Bayes.C35_special_values"
   ],
   "note": "False for precision 31 (endless loop) and when the true value does not fit 32 bits (C35_refuted); proved otherwise with error < 4 units."
  },
  {
   "property": "C36",
   "status": "proved",
   "theorems": [
    "Emlearn.Net.C36_infer_is_composition",
    "Emlearn.Net.C36_wrong_length_refused",
    "Emlearn.Net.C36_single_layer_refused",
    "Emlearn.Net.C36_regress_values",
    "Emlearn.Net.C36_layer_textbook"
   ],
   "note": "For arbitrary arithmetic (no laws). C36_layer_textbook identifies the specification with W^T x + b and textbook activations over the reals. A single-layer network is refused (C36_single_layer_refused)."
  },
  {
   "property": "C37",
   "status": "proved",
   "theorems": [
    "Emlearn.Net.C37_history_independent"
   ],
   "note": "Any sequence of predict/predict_proba/regress calls with inputs and output arrays of any length, over the same static buffers."
  },
  {
   "property": "C38",
   "status": "partial",
   "theorems": [
    "Emlearn.Net.C38_predict_argmax",
    "Emlearn.Net.C38_predict_threshold",
    "Emlearn.Net.C38_proba_consistent_partial",
    "Emlearn.Net.C38_refuted",
    "Emlearn.Net.C38_proba_values"
   ],
   "note": "Class part proved. The consistency part is false for networks with exactly two outputs: predict_proba treats output 0 as the probability of class 1 (C38_refuted, for every such network); proved for all other output counts."
  },
  {
   "property": "C39",
   "status": "proved",
   "theorems": [
    "Emlearn.Net.C39_softmax"
   ],
   "note": "Exact real arithmetic, Real.exp/Real.log; any start value of the maximum search."
  },
  {
   "property": "C40",
   "status": "partial",
   "theorems": [
    "Emlearn.Net.C40_inline_infer_is_composition",
    "Emlearn.Net.C40_inline_eq_loadable",
    "Emlearn.Net.C40_inline_length_unchecked",
    "Emlearn.Net.Codegen.C40_inline_generation_refuted"
   ],
   "note": "Inline code as the templates define it agrees with loadable code (proved), but the inline generator itself always raises: C40_inline_generation_refuted. Inline code does not check the input length."
  },
  {
   "property": "C41",
   "status": "partial",
   "theorems": [
    "Emlearn.Net.C41_refuted",
    "Emlearn.Net.C41_argmax_fixed_partial"
   ],
   "note": "False: -1 whenever the first value is a maximum. Proved on the complement."
  },
  {
   "property": "C42",
   "status": "partial",
   "theorems": [
    "Emlearn.Net.C42_refuted",
    "Emlearn.Net.C42_keras_conversion_partial",
    "Emlearn.Net.C42_refused"
   ],
   "note": "False when an activation layer follows a Dense layer that has its own activation (the activation is overwritten). Proved for models where each activation layer follows a Dense layer with linear activation."
  },
  {
   "property": "C43",
   "status": "proved",
   "theorems": [
    "Emlearn.Distance.C43_c_quadratic_form",
    "Emlearn.Distance.C43_py_quadratic_form",
    "Emlearn.Distance.C43_c_eq_py",
    "Emlearn.Distance.C43_nonneg"
   ],
   "note": "Exact arithmetic over any field; rounding is covered by C97."
  },
  {
   "property": "C44",
   "status": "partial",
   "theorems": [
    "Emlearn.Distance.C44_c_outlier_iff",
    "Emlearn.Distance.C44_wrapper_agrees_partial",
    "Emlearn.Distance.C44_refuted",
    "Emlearn.Distance.C44_wrong_length_looks_like_outlier"
   ],
   "note": "False exactly on the boundary (C44_refuted: every boundary point), proved elsewhere. C44_wrong_length_looks_like_outlier: a wrong input length returns the same number as an outlier."
  },
  {
   "property": "C45",
   "status": "proved",
   "theorems": [
    "Emlearn.Mixture.C45_log_proba",
    "Emlearn.Mixture.C45_refused",
    "Emlearn.Mixture.C45_short_input_reads_past_end",
    "Emlearn.Mixture.C45_errors_reported",
    "Emlearn.Mixture.C45_is_gaussian",
    "Emlearn.Mixture.C45_score",
    "Emlearn.Mixture.C45_responsibilities"
   ],
   "note": "Exact real arithmetic, EML_LOG_2PI read as log(2*pi). C45_is_gaussian ties the formula to the Gaussian density. Input length is never checked by the code. Rounding is covered by C107."
  },
  {
   "property": "C46",
   "status": "proved",
   "theorems": [
    "Emlearn.Mixture.C46_convert_to_full",
    "Emlearn.Mixture.C46_wrong_shape_refused",
    "Emlearn.Mixture.C46_log_det"
   ],
   "note": "Exact arithmetic."
  },
  {
   "property": "C47",
   "status": "proved",
   "theorems": [
    "Emlearn.Iir.C47_difference_equation",
    "Emlearn.Iir.C47_check",
    "Emlearn.Iir.C47_linear",
    "Emlearn.Iir.C47_causal"
   ],
   "note": "Exact arithmetic over a commutative ring; every cascade, input sequence and stage count. Rounding is covered by C99."
  },
  {
   "property": "C48",
   "status": "proved",
   "theorems": [
    "Emlearn.Fft.C48_fft_is_dft",
    "Emlearn.Fft.C48_rejects",
    "Emlearn.Fft.C48_fill_rejects"
   ],
   "note": "Exact complex arithmetic; every power-of-two length with the table eml_fft_fill() writes; rounding is covered by C102."
  },
  {
   "property": "C49",
   "status": "proved",
   "theorems": [
    "Emlearn.Filterbank.C49_sparse_equals_dense",
    "Emlearn.Filterbank.C49_all_zero_filter_raises",
    "Emlearn.Filterbank.C49_interior_zero_fails"
   ],
   "note": "Exact arithmetic over a commutative ring; Python and C; every band filterbank. Also proved: all-zero filters raise, interior zeros always fail in Python. Rounding is covered by C98."
  },
  {
   "property": "C50",
   "status": "partial",
   "theorems": [
    "Emlearn.Audio.C50_out_of_bounds_exactly",
    "Emlearn.Audio.C50_in_bounds_partial",
    "Emlearn.Audio.C50_refuted"
   ],
   "note": "False as stated: every odd n_fft with fmax at Nyquist reads one past the spectrum (C50_refuted, reachable through the Python binding melfilter); exact characterisation of the out-of-bounds cases and safety elsewhere proved (-700 < fmin <= fmax, exact reals)."
  },
  {
   "property": "C51",
   "status": "proved",
   "theorems": [
    "Emlearn.Pareto.C51_pareto_exact",
    "Emlearn.Pareto.C51_front_covers"
   ],
   "note": "Every finite table over a linear order, any number of costs; also completeness of the front."
  },
  {
   "property": "C52",
   "status": "proved",
   "theorems": [
    "Emlearn.Benchmark.C52_step_every_state",
    "Emlearn.Benchmark.C52_parkmiller",
    "Emlearn.Benchmark.C52_fill",
    "Emlearn.Benchmark.C52_full_period",
    "Emlearn.Benchmark.C52_zero_state"
   ],
   "note": "Every 32-bit state; also full period 2^31-2 and the closed form of the benchmark data. Conversion to float not modelled."
  },
  {
   "property": "C53",
   "status": "partial",
   "theorems": [
    "Emlearn.Cgen.C53_identifiers_partial",
    "Emlearn.Cgen.C53_identifiers_no_newline_partial",
    "Emlearn.Cgen.C53_refuted"
   ],
   "note": "False as stated: a trailing newline is accepted (C53_refuted); exact accepted set proved for all strings."
  },
  {
   "property": "C54",
   "status": "proved",
   "theorems": [
    "Emlearn.Cgen.C54_integer_array",
    "Emlearn.Cgen.C54_float_array",
    "Emlearn.Cgen.C54_wrong_size_refused",
    "Emlearn.Cgen.C54_constant",
    "Emlearn.Cgen.C54_declarator",
    "Emlearn.Cgen.C54_constant_text_refused",
    "Emlearn.Cgen.C54_constant_text_number"
   ],
   "note": "Text level: the declaration is read back. Integer types exact; float literals within 5e-7 (exact for <= 6 decimals); other types (str(val)) not modelled beyond the size check."
  },
  {
   "property": "C55",
   "status": "partial",
   "theorems": [
    "Emlearn.Trees.C55_options_validated_partial",
    "Emlearn.Trees.C55_refuted"
   ],
   "note": "Every option combination of the constructor. The header-field part is false: the number of classes is not checked, so 200 classes are stored as -56 and every predict_proba call fails (C55_refuted)."
  },
  {
   "property": "C56",
   "status": "partial",
   "theorems": [
    "Emlearn.Harness.C56_predict",
    "Emlearn.Harness.C56_predict_classes",
    "Emlearn.Harness.C56_received_close",
    "Emlearn.Harness.C56_narrow_enough",
    "Emlearn.Harness.C56_wide_refuted"
   ],
   "note": "Full characterisation for all matrices with non-empty rows: predict returns one prediction per row, in order, iff every serialized row fits the 2 KiB buffer, else raises; never wrong or shifted. C56_wide_refuted: rows of more than 186 values always raise, so the unconditional claim is false. float rounding inside sscanf is part of the modelled function."
  },
  {
   "property": "C57",
   "status": "proved",
   "theorems": [
    "Emlearn.Harness.C57_predict_proba",
    "Emlearn.Harness.C57_predict_proba_success",
    "Emlearn.Harness.C57_stale_probabilities"
   ],
   "note": "Every entry set for all shapes; C57_stale_probabilities: a row whose call fails silently reports the previous row's probabilities (generated program ignores the error)."
  },
  {
   "property": "C58",
   "status": "proved",
   "theorems": [
    "Emlearn.Motion.C58_windows",
    "Emlearn.Motion.C58_process",
    "Emlearn.Motion.C58_checks",
    "Emlearn.Motion.C58_bad_hop_faults"
   ],
   "note": "Full for 1 <= hop <= window, unbounded stream; C58_checks covers option validation; C58_bad_hop_faults: hop=0 or hop>window is accepted and faults. Simplification: CSV rows are modelled after parsing."
  },
  {
   "property": "C59",
   "status": "partial",
   "theorems": [
    "Emlearn.Sensor.C59_every_schedule_partial",
    "Emlearn.Sensor.C59_calm_partial",
    "Emlearn.Sensor.C59_refuted",
    "Emlearn.Sensor.C59_keeps_up"
   ],
   "note": "Every schedule: no access out of bounds, chunks torn at most in a monotone way (C59_every_schedule_partial). Schedules in which no window is completed while a chunk is processed: every chunk is one window (C59_calm_partial). A condition on the schedule alone (W+2 main steps between completions): all windows, in order, none lost (C59_keeps_up). False in general (C59_refuted)."
  },
  {
   "property": "C60",
   "status": "proved",
   "theorems": [
    "Emlearn.Vector.C60_vector_set",
    "Emlearn.Vector.C60_set_value",
    "Emlearn.Vector.C60_view",
    "Emlearn.Vector.C60_view_unchecked",
    "Emlearn.Vector.C60_mean",
    "Emlearn.Vector.C60_mean_empty"
   ],
   "note": "set, set_value and mean full; C60_view_unchecked: eml_vector_view does not check its bounds."
  },
  {
   "property": "C61",
   "status": "partial",
   "theorems": [
    "Emlearn.Trees.C61_csv_export_round_trip_partial",
    "Emlearn.Trees.C61_refuted"
   ],
   "note": "Every converted forest without placeholder thresholds (no tree that is a single leaf); for a forest with a single-leaf tree the export raises (C61_refuted)."
  },
  {
   "property": "C62",
   "status": "partial",
   "theorems": [
    "Emlearn.Trees.C62_reported_size_partial",
    "Emlearn.Trees.C62_refuted"
   ],
   "note": "Node and leaf counts, and bytes for leaf_bits = 32, are as reported; for class leaves the reported bytes miss one byte per leaf, for probability leaves k-1 bytes per leaf (exact difference proved; C62_refuted)."
  },
  {
   "property": "C63",
   "status": "partial",
   "theorems": [
    "Emlearn.Motion.C63_init",
    "Emlearn.Motion.C63_set_fft_features",
    "Emlearn.Motion.C63_get_features_partial",
    "Emlearn.Motion.C63_refuted"
   ],
   "note": "Proved for start <= end; C63_refuted: set_fft_features accepts start > end, after which get_features copies a negative size."
  },
  {
   "property": "C64",
   "status": "partial",
   "theorems": [
    "Emlearn.ErrorStr.C64_refuted",
    "Emlearn.ErrorStr.C64_error_names_partial"
   ],
   "note": "Two names are swapped (C64_refuted); proved for all other codes."
  },
  {
   "property": "C65",
   "status": "partial",
   "theorems": [
    "Emlearn.Quant.C65_fit_covers_range",
    "Emlearn.Quant.C65_unsigned_refuted"
   ],
   "note": "Proved for signed dtypes; C65_unsigned_refuted: with an unsigned dtype negative data is cast out of range."
  },
  {
   "property": "C66",
   "status": "partial",
   "theorems": [
    "Emlearn.Bayes.C66_refuted",
    "Emlearn.Bayes.C66_misuse_partial"
   ],
   "note": "False as stated (C66_refuted); proved for the class-count check and for non-zero standard deviations."
  },
  {
   "property": "C67",
   "status": "partial",
   "theorems": [
    "Emlearn.Net.C67_refuted"
   ],
   "note": "False: the layer computation is disabled (#if 0); the generated code answers the same for every input."
  },
  {
   "property": "C68",
   "status": "proved",
   "theorems": [
    "Emlearn.Net.C68_mlp_conversion",
    "Emlearn.Net.C68_no_hidden_refused"
   ],
   "note": "Over any arithmetic (no laws used). The specification sklearnForward is scikit-learn's forward pass written out; reading coefs_ and intercepts_ as lists is the model's assumption."
  },
  {
   "property": "C69",
   "status": "proved",
   "theorems": [
    "Emlearn.Mixture.C69_minmax"
   ],
   "note": "Any linear order with the start values as bounds: infinities included, NaN excluded."
  },
  {
   "property": "C70",
   "status": "partial",
   "theorems": [
    "Emlearn.Mixture.C70_refuted"
   ],
   "note": "False: the function is declared to return bool."
  },
  {
   "property": "C71",
   "status": "proved",
   "theorems": [
    "Emlearn.Audio.C71_mel_scale"
   ],
   "note": "Exact reals."
  },
  {
   "property": "C72",
   "status": "partial",
   "theorems": [
    "Emlearn.Audio.C72_melspectrogram_partial",
    "Emlearn.Audio.C72_refuted",
    "Emlearn.Audio.C72_hann_symmetric"
   ],
   "note": "False as stated: only the real part of the spectrum is used (C72_refuted); the exact function computed is proved."
  },
  {
   "property": "C73",
   "status": "partial",
   "theorems": [
    "Emlearn.Audio.C73_triangular_filters_partial",
    "Emlearn.Audio.C73_refuted"
   ],
   "note": "False at one bin per filter (C73_refuted): the centre bin above the centre frequency gets weight 1; exact weights proved."
  },
  {
   "property": "C74",
   "status": "partial",
   "theorems": [
    "Emlearn.Pareto.C74_find_pareto_front_partial",
    "Emlearn.Pareto.C74_refuted"
   ],
   "note": "False when the performance column is named mean_test_score (C74_refuted); proved for all other names."
  },
  {
   "property": "C75",
   "status": "partial",
   "theorems": [
    "Emlearn.Cgen.C75_struct_declare_partial",
    "Emlearn.Cgen.C75_refuted"
   ],
   "note": "False as stated: modifiers are ignored (C75_refuted); type, name and initializers proved."
  },
  {
   "property": "C76",
   "status": "partial",
   "theorems": [
    "Emlearn.Motion.C76_name_text",
    "Emlearn.Motion.C76_name_value",
    "Emlearn.Motion.C76_all_names_distinct",
    "Emlearn.Motion.C76_names_distinct",
    "Emlearn.Motion.C76_refuted"
   ],
   "note": "The names as printed (snprintf modelled), for fixed and FFT features: all distinct when bins are at least 0.1 Hz apart (C76_all_names_distinct), and the printed frequency is within 0.05 Hz of the bin's (C76_name_value). C76_refuted: the decimal can be 10, and names repeat for closer bins."
  },
  {
   "property": "C77",
   "status": "partial",
   "theorems": [
    "Emlearn.Motion.C77_run",
    "Emlearn.Motion.C77_rejects",
    "Emlearn.Motion.C77_init_ready",
    "Emlearn.Motion.C77_orientation_unit",
    "Emlearn.Motion.C77_no_filter",
    "Emlearn.Motion.C77_magnitude_refuted",
    "Emlearn.Motion.C77_many_windows",
    "Emlearn.Motion.C77_set_gravity"
   ],
   "note": "All of run proved in exact real arithmetic, including the FFT; C77_magnitude_refuted: the 'magnitude' is the absolute real part. frames_processed is unbounded (int32 in C)."
  },
  {
   "property": "C78",
   "status": "partial",
   "theorems": [
    "Emlearn.Neighbors.C78_check",
    "Emlearn.Neighbors.C78_large_refuted",
    "Emlearn.Neighbors.C78_then_safe"
   ],
   "note": "Sound for all lengths; complete below 2^15; C78_large_refuted: arrays of 2^15 or more values are refused because the parameter is int16_t."
  },
  {
   "property": "C79",
   "status": "partial",
   "theorems": [
    "Emlearn.Neighbors.C79_converted_predict_partial",
    "Emlearn.Neighbors.C79_truncation_refuted",
    "Emlearn.Neighbors.C79_long_input_refuted",
    "Emlearn.Neighbors.C79_errors",
    "Emlearn.Neighbors.C79_refusals"
   ],
   "note": "Proved for data and queries after truncation to integers (int16 range, squared distances < 2^30); C79_truncation_refuted: fractional data is truncated, giving a wrong class; C79_long_input_refuted: too long inputs overflow a stack array before the length check. Class indices are returned, not the original labels (wrapper.predict)."
  },
  {
   "property": "C80",
   "status": "proved",
   "theorems": [
    "Emlearn.Bayes.C80_logpdf_accurate",
    "Emlearn.Bayes.C80_domain_sharp"
   ],
   "note": "Exact reals (Mathlib gaussianPDFReal); C80_domain_sharp: at 182 standard deviations the squaring overflows."
  },
  {
   "property": "C81",
   "status": "proved",
   "theorems": [
    "Emlearn.Bayes.C81_predict_gaussian",
    "Emlearn.Bayes.C81_generated_log",
    "Emlearn.Bayes.C81_converted"
   ],
   "note": "Densities of the stored (Q16) parameters at the Q16 inputs; class priors of the estimator are ignored by the code and by the specification (equal priors). C81_converted bounds the distance of the stored parameters from the fitted ones."
  },
  {
   "property": "C82",
   "status": "partial",
   "theorems": [
    "Emlearn.Trees.C82_self_check_partial",
    "Emlearn.Trees.C82_refuted",
    "Emlearn.Trees.C82_accepts_valid"
   ],
   "note": "Proved: exact characterisation of what the check accepts. Missing/false (C82_refuted): leaf references of right children are never checked (the left ones are asserted twice), so a dangling right leaf reference passes."
  },
  {
   "property": "C83",
   "status": "proved",
   "theorems": [
    "Emlearn.Trees.C83_soft_vote_close",
    "Emlearn.Trees.C83_clear_winner",
    "Emlearn.Trees.C83_single_tree_exact",
    "Emlearn.Trees.C83_class_bound_sharp",
    "Emlearn.Trees.C83_hard_vote_differs"
   ],
   "note": "Exact arithmetic for probabilities; tree walk with the generated integer comparison. C83_class_bound_sharp: the class-count bound is sharp (leaf_bits=2, 4 equal classes: predict -1, reported as class 1). C83_hard_vote_differs: with default hard voting (leaf_bits=0) forests of several trees can disagree with the averaged probabilities."
  },
  {
   "property": "C84",
   "status": "partial",
   "theorems": [
    "Emlearn.Net.C84_infer_safe",
    "Emlearn.Net.C84_predict_safe",
    "Emlearn.Net.C84_outputs_safe",
    "Emlearn.Net.C84_no_layers_refuted"
   ],
   "note": "Safety and exact codes for networks with at least one layer. C84_no_layers_refuted: with zero layers predict reports unsupported but regress and predict_proba read layers[-1] first."
  },
  {
   "property": "C85",
   "status": "proved",
   "theorems": [
    "Emlearn.Cgen.C85_fixedpoint_array",
    "Emlearn.Cgen.C85_width_refused"
   ],
   "note": "Numbers are rationals; int64 range of numpy not modelled. str() of an integer is assumed to be its decimal text."
  },
  {
   "property": "C86",
   "status": "proved",
   "theorems": [
    "Emlearn.Net.Codegen.C86_generated_source_declares_network",
    "Emlearn.Net.Codegen.C86_generated_source_runs",
    "Emlearn.Net.Codegen.C86_refusals"
   ],
   "note": "The source text is read back by an independent reader (Cgen/Reader.lean). Excludes names ending in a line break, which the name check accepts (C53_refuted). Weights are finite rationals; the compiler's conversion of a decimal literal to float is not modelled."
  },
  {
   "property": "C87",
   "status": "partial",
   "theorems": [
    "Emlearn.Convert.C87_dispatch_partial",
    "Emlearn.Convert.C87_default_refuted",
    "Emlearn.Convert.C87_unknown_method_refuted",
    "Emlearn.Convert.C87_ignored_options",
    "Emlearn.Convert.C87_subclass_refuted"
   ],
   "note": "Exact acceptance table proved. False parts: EllipticEnvelope with the default method raises (C87_default_refuted); mixtures accept any method name (C87_unknown_method_refuted); a tree regressor subclass whose class name lacks 'Regressor' is converted as a classifier (C87_subclass_refuted). Reading the trained parameters and compiling are taken to succeed."
  },
  {
   "property": "C88",
   "status": "proved",
   "theorems": [
    "Emlearn.Trees.C88_inline_predict_hard",
    "Emlearn.Trees.C88_inline_proba_hard",
    "Emlearn.Trees.C88_inline_proba_soft",
    "Emlearn.Trees.C88_inline_predict_soft",
    "Emlearn.Trees.C88_inline_regress"
   ],
   "note": "The exact text (Trees/Text.lean) is read by a C lexer/parser (MiniC/Syntax.lean) and run by a C semantics (MiniC/Sem.lean, undefined behaviour = none). Specification size: MiniC. Integer features compare with the truncated threshold, float features with the threshold printed with six decimals. The name must not contain a newline (the regex of assert_valid_identifier lets a trailing one through, C53)."
  },
  {
   "property": "C89",
   "status": "proved",
   "theorems": [
    "Emlearn.Trees.C89_loadable_struct",
    "Emlearn.Trees.C89_loadable_predict",
    "Emlearn.Trees.C89_loadable_regress",
    "Emlearn.Trees.C89_loadable_proba",
    "Emlearn.Trees.C89_end_to_end",
    "Emlearn.Trees.C89_names_refuted",
    "Emlearn.Trees.C89_end_to_end_soft"
   ],
   "note": "Proved for every name except those in LoadArgs (C names used inside the generated functions, type names): C89_names_refuted shows that the generator accepts such names and that the code is then broken. The text model is Trees/Text.lean, the reader MiniC; the library functions are the models of Trees/CModel.lean. The number of features is reduced to int8_t by the library. C89_end_to_end_soft: the same from trained trees with probability leaves, in every float arithmetic with a linear order."
  },
  {
   "property": "C90",
   "status": "proved",
   "theorems": [
    "Emlearn.Net.CText.C90_written_close",
    "Emlearn.Net.CText.C90_net_struct",
    "Emlearn.Net.CText.C90_net_predict",
    "Emlearn.Net.CText.C90_net_regress1",
    "Emlearn.Net.CText.C90_net_regress",
    "Emlearn.Net.CText.C90_end_to_end",
    "Emlearn.Net.CText.C90_names_refuted"
   ],
   "note": "The text model is that of C86; the C language is specified in MiniC/*, the structure reader readNetC and the library dispatch netLib in Net/TextRun.lean. Name collisions (features, n_features, out, out_length, eml_net, type names) are excluded; C90_names_refuted shows that the name check does not exclude them. Empty weight matrices and sizes beyond int32_t are excluded."
  },
  {
   "property": "C91",
   "status": "proved",
   "theorems": [
    "Emlearn.Neighbors.CText.C91_saved_model",
    "Emlearn.Neighbors.CText.C91_wrapper_call",
    "Emlearn.Neighbors.CText.C91_wrapper_predict",
    "Emlearn.Neighbors.CText.C91_end_to_end",
    "Emlearn.Neighbors.CText.C91_add_refused",
    "Emlearn.Neighbors.CText.C91_names_refuted"
   ],
   "note": "The text is lexed, parsed and executed by the C subset in MiniC; eml_neighbors_predict itself is the function model of Neighbors/Model.lean on the structure read from the text. Names of types used in the text (int16_t, EmlNeighborsModel) pass the name check but give text that is not C (C91_names_refuted)."
  },
  {
   "property": "C92",
   "status": "proved",
   "theorems": [
    "Emlearn.Mixture.CText.C92_model",
    "Emlearn.Mixture.CText.C92_predict_log_proba",
    "Emlearn.Mixture.CText.C92_score",
    "Emlearn.Mixture.CText.C92_predict_proba",
    "Emlearn.Mixture.CText.C92_end_to_end",
    "Emlearn.Mixture.CText.C92_small_precision_refuted",
    "Emlearn.Mixture.CText.C92_names_refuted"
   ],
   "note": "The text is lexed, parsed and executed by the C subset in MiniC; the functions of eml_mixture.h are the model of Mixture/Model.lean on the structure read from the text. Refuted: precisions below 5e-7 are written as zero (C92_small_precision_refuted); the name eml_mixture passes the name check but gives functions that call themselves (C92_names_refuted)."
  },
  {
   "property": "C93",
   "status": "proved",
   "theorems": [
    "Emlearn.Distance.CText.C93_model",
    "Emlearn.Distance.CText.C93_predict",
    "Emlearn.Distance.CText.C93_end_to_end",
    "Emlearn.Distance.CText.C93_small_precision_refuted",
    "Emlearn.Distance.CText.C93_names_refuted"
   ],
   "note": "Text lexed, parsed and executed by MiniC; Python str(float) is modelled in Decimal.lean (positional and exponent notation) and read back by the C lexer. Refuted: precision entries below 5e-7 are written as zero, then the distance is 0 for every input (C93_small_precision_refuted); the name eml_elliptic_envelope gives a function that calls itself (C93_names_refuted). Not covered: nan and inf offsets; the local variable `class` is no C++ identifier."
  },
  {
   "property": "C94",
   "status": "proved",
   "theorems": [
    "Emlearn.Bayes.CText.C94_model",
    "Emlearn.Bayes.CText.C94_predict",
    "Emlearn.Bayes.CText.C94_out_of_range_refuted",
    "Emlearn.Bayes.CText.C94_end_to_end",
    "Emlearn.Bayes.CText.C94_names_refuted"
   ],
   "note": "Text lexed, parsed and executed by MiniC; the macro EML_Q16_FROMFLOAT is read as truncation of double times 65536 with the range of int. C94_end_to_end composes the text with C33 and C81. Refuted: a number outside Q16 gives a text with undefined behaviour (C94_out_of_range_refuted); the name eml_bayes gives a function that calls itself (C94_names_refuted)."
  },
  {
   "property": "C95",
   "status": "proved",
   "theorems": [
    "Emlearn.Tools.C95_wrap",
    "Emlearn.Tools.C95_window",
    "Emlearn.Tools.C95_window_default",
    "Emlearn.Tools.C95_narrow_refuted",
    "Emlearn.Tools.C95_names_refuted",
    "Emlearn.Tools.C95_tables",
    "Emlearn.Tools.C95_filterbank",
    "Emlearn.Tools.C95_filterbank_error",
    "Emlearn.Tools.C95_fmax_refuted"
   ],
   "note": "textwrap.wrap (default options) is modelled, with expand_tabs, and its word splitting restricted to whitespace-separated words plus the forced cut of long words (the hyphen rule is excluded by the characters of the items: stated in Tools/Textwrap.lean); the files are lexed and parsed by MiniC. Refuted outside the hypotheses: a line width below the longest word cuts identifiers (C95_narrow_refuted), the name is not checked (C95_names_refuted), fmax is cut to an integer (C95_fmax_refuted)."
  },
  {
   "property": "C96",
   "status": "proved",
   "theorems": [
    "Emlearn.Flt.C96_network",
    "Emlearn.Flt.C96_regress",
    "Emlearn.Flt.C96_predict",
    "Emlearn.Flt.C96_text"
   ],
   "note": "standard model of rounding (Float/Model.lean): each float operation whose exact result is in range is the exact result up to u relative (plus eta where it may be subnormal); binary32 with round-to-nearest is an instance (Float/Binary.lean, BinaryNet.lean). The accuracy of expf, logf and tanhf is a parameter uf. Overflow is excluded by NetRange, which is computed from the network; FMA contraction and extended precision are covered as far as they meet the standard model per operation (a fused multiply-add is not a composition of two rounded operations and is not covered)."
  },
  {
   "property": "C97",
   "status": "proved",
   "theorems": [
    "Emlearn.Flt.C97_distance",
    "Emlearn.Flt.C97_outlier",
    "Emlearn.Flt.C97_text"
   ],
   "note": "From the generated text through the C model to a bound on the exact distance; the decision is exact outside a margin of that bound. The standard model of floating point (each operation correct up to relative u plus absolute eta, no overflow) is a hypothesis that is proved for IEEE binary32 round-to-nearest-even in Float/Binary.lean and Float/BinaryOps.lean."
  },
  {
   "property": "C98",
   "status": "proved",
   "theorems": [
    "Emlearn.Flt.C98_filterbank",
    "Emlearn.Flt.C98_text"
   ],
   "note": "From the generated text (C95_tables, any float type) through eml_sparse_filterbank to a bound on the exact matrix-vector product; standard model proved for binary32."
  },
  {
   "property": "C99",
   "status": "proved",
   "theorems": [
    "Emlearn.Flt.C99_iir",
    "Emlearn.Flt.C99_stable",
    "Emlearn.Flt.C99_error"
   ],
   "note": "C99_iir: run of the C model in rounded arithmetic; C99_stable: poles inside the unit circle imply a finite gain; C99_error: closed form of the smallest admissible bound per section. Coefficients are hypotheses (there is no generator of IIR code in the repository)."
  },
  {
   "property": "C100",
   "status": "proved",
   "theorems": [
    "Emlearn.Save.C100_name",
    "Emlearn.Save.C100_save",
    "Emlearn.Save.C100_net",
    "Emlearn.Save.C100_trees",
    "Emlearn.Save.C100_refused",
    "Emlearn.Save.C100_atomic_refuted"
   ],
   "note": "C100_save is generic over the generator; C100_net, C100_trees, C100_refused instantiate it. C100_atomic_refuted shows that the last sentence cannot be strengthened to atomicity (it is not part of the claim). File system: a map from path strings to contents, POSIX path rules, no links."
  },
  {
   "property": "C101",
   "status": "proved",
   "theorems": [
    "Emlearn.Size.C101_sizes",
    "Emlearn.Size.C101_plain",
    "Emlearn.Size.C101_checked"
   ],
   "note": "The regular expression is modelled by greedy runs (proved to find a match whenever some decomposition exists); ASCII character classes. Running the compiler and the size tool is not modelled: the table they print is the input."
  },
  {
   "property": "C102",
   "status": "proved",
   "theorems": [
    "Emlearn.Flt.C102_fft",
    "Emlearn.Flt.C102_fill"
   ],
   "note": "Standard model of rounding (u, eta, M); binary32 with rounding to nearest is proved to satisfy it. No fused multiply-add. cosf/sinf accuracy is a hypothesis."
  },
  {
   "property": "C103",
   "status": "proved",
   "theorems": [
    "Emlearn.Flt.C103_hard_vote",
    "Emlearn.Flt.C103_regress",
    "Emlearn.Flt.C103_inline_regress",
    "Emlearn.Flt.C103_soft_proba",
    "Emlearn.Flt.C103_soft_predict",
    "Emlearn.Flt.C103_inline_soft_predict",
    "Emlearn.Flt.Binary32.C103_converted_plurality",
    "Emlearn.Flt.Binary32.C103_regress32",
    "Emlearn.Flt.Binary32.C103_soft_err32"
   ],
   "note": "Standard model of rounding (Float/Model), with counting exact below 2^24; binary32 instance `treeArith`. The 4-byte decoding of regression leaves is a parameter (leafFloat); see C11 and C09 for the exact-arithmetic claims."
  },
  {
   "property": "C104",
   "status": "partial",
   "theorems": [
    "Emlearn.Bindings.C104_iirfilter",
    "Emlearn.Bindings.C104_iirfilter_columns",
    "Emlearn.Bindings.C104_iirfilter_columns_refuted",
    "Emlearn.Bindings.C104_rfft",
    "Emlearn.Bindings.C104_melfilter_partial",
    "Emlearn.Bindings.C104_melfilter_refuted",
    "Emlearn.Bindings.C104_melspectrogram_partial",
    "Emlearn.Bindings.C104_melspectrogram_refuted",
    "Emlearn.Bindings.C104_sparse_filterbank",
    "Emlearn.Bindings.C104_sparse_filterbank_refuted"
   ],
   "note": "Partial: wrong shapes are not all rejected. iirfilter does not check the number of columns (fewer than 6: reads outside the array; more: shifted coefficients); melfilter reads outside for odd n_fft; melspectrogram writes outside for n_mels > n_fft; sparse_filterbank checks neither limits nor coefficient count. Each has a _refuted theorem; the exact behaviour of iirfilter on every shape is C104_iirfilter_columns. Exact arithmetic for rfft/mel; arrays are C-contiguous, conversion by pybind11 not modelled."
  },
  {
   "property": "C105",
   "status": "partial",
   "theorems": [
    "Emlearn.Log.C105_roundtrip_partial",
    "Emlearn.Log.C105_numbers",
    "Emlearn.Log.C105_disabled",
    "Emlearn.Log.C105_array",
    "Emlearn.Log.C105_refuted"
   ],
   "note": "Partial: an array field is printed without '=' and cannot be read back as key and value, and an event name containing % is used as a printf format (C105_refuted). C105_array gives the exact text of every array field. Macro hygiene (the index i of the array macro) is not modelled."
  },
  {
   "property": "C106",
   "status": "partial",
   "theorems": [
    "Emlearn.Arduino.C106_refuses",
    "Emlearn.Arduino.C106_frame",
    "Emlearn.Arduino.C106_install_partial",
    "Emlearn.Arduino.C106_refuted",
    "Emlearn.Arduino.C106_update_keeps"
   ],
   "note": "Partial: success is reported without copying anything when the include path contains a glob character ([, * or ?) or does not exist (C106_refuted). An update never removes outdated headers (C106_update_keeps). Modelled with Python's glob/fnmatch on POSIX; no symbolic links, permissions or concurrent changes; sys.platform lookup and argument parsing not modelled."
  },
  {
   "property": "C107",
   "status": "proved",
   "theorems": [
    "Emlearn.Flt.C107_log_proba",
    "Emlearn.Flt.C107_lse",
    "Emlearn.Flt.C107_predict_proba",
    "Emlearn.Flt.C107_text"
   ],
   "note": "Standard model of floating point (each operation correctly rounded up to u relative and eta absolute, no overflow, expf/logf accurate up to uf; the double expression of line 234 accurate up to uc). EML_LOG_2PI is proved to be log(2 pi) to 1e-8 (log2pi_close); binary32 instance and a mixture with three components proved. The bound is relative to sum (|x|+|mu|)|L|, as the code subtracts two dot products instead of x - mu."
  },
  {
   "property": "C108",
   "status": "partial",
   "theorems": [
    "Emlearn.Motion.C108_options",
    "Emlearn.Motion.C108_missing_value",
    "Emlearn.Motion.C108_every_list",
    "Emlearn.Motion.C108_number",
    "Emlearn.Motion.C108_no_input_refuted"
   ],
   "note": "Complete for opt_parse_args as called by parse. C108_no_input_refuted: leaving out --input (or giving it without need) is not reported; fopen(NULL) follows, which is undefined behaviour. atoi outside int is undefined behaviour (none in the model)."
  },
  {
   "property": "C109",
   "status": "partial",
   "theorems": [
    "Emlearn.Motion.C109_process",
    "Emlearn.Motion.C109_refusals",
    "Emlearn.Motion.C109_last_line_refuted",
    "Emlearn.Motion.C109_short_line_refuted"
   ],
   "note": "C109_process: exact contents of the output file and exit status for all well-formed files, in terms of the preprocessor of C77. C109_refusals: exit statuses of the refusals. Refuted: a last line without newline gets a stale last column, and a line with fewer columns is taken as a row while the rest of the read buffer is lost (C109_last_line_refuted, C109_short_line_refuted). Exact real arithmetic; strtod, printf and the model are parameters; writes and seeks always succeed; lines with more than ten columns after the header are not modelled."
  },
  {
   "property": "C110",
   "status": "partial",
   "theorems": [
    "Emlearn.Trees.C110_inline_predict",
    "Emlearn.Trees.C110_inline_predict_soft",
    "Emlearn.Trees.C110_inline_proba",
    "Emlearn.Trees.C110_inline_proba_soft",
    "Emlearn.Trees.C110_inline_regress",
    "Emlearn.Trees.C110_loadable_predict",
    "Emlearn.Trees.C110_loadable_proba",
    "Emlearn.Trees.C110_loadable_regress",
    "Emlearn.Trees.C110_columns_refuted",
    "Emlearn.Trees.C110_columns_loadable_refuted",
    "Emlearn.Trees.C110_short_rows_refuted",
    "Emlearn.Trees.C110_loadable_soft"
   ],
   "note": "Composition of the text properties C88/C89 with the text of the wrapper functions and the harness C56/C57. Refuted parts: the number of columns is not checked: more columns write outside an array and values outside the integer type are undefined (C110_columns_refuted, C110_columns_loadable_refuted); with fewer columns a loadable model reports class 3 for every row (C110_short_rows_refuted), because error codes lose their sign in predict_wrapper; for the same reason a soft-voting model without any positive sum reports class 1 (C110_inline_predict_soft states this case). sscanf and the printed value of a float are parameters; nan and infinities are not modelled in the printed text. C110_loadable_soft: from trained trees with probability leaves to predict and predict_proba of the loadable method."
  },
  {
   "property": "C111",
   "status": "partial",
   "theorems": [
    "Emlearn.Session.C111_tree_predict",
    "Emlearn.Session.C111_tree_proba",
    "Emlearn.Session.C111_predict_last",
    "Emlearn.Session.C111_proba_last",
    "Emlearn.Session.C111_own_until_next_partial",
    "Emlearn.Session.C111_own_refuted",
    "Emlearn.Session.C111_chdir_refuted",
    "Emlearn.Session.C111_types"
   ],
   "note": "Holds for tree models after every history (C111_tree_predict, C111_tree_proba): they compile at each call, because the cache attribute that _build_classifier tests is never assigned. For the other families it is refuted (C111_own_refuted, C111_chdir_refuted): every model of a family is compiled to the same relative path in the constructor, so the answer is that of the last converted model of the family in the current directory (exact: C111_predict_last, C111_proba_last); it holds until the next conversion of the family (C111_own_until_next_partial). The compiler and the executables are arbitrary functions. Concurrent processes and other writers of tmp/ are not modelled; mixture models build in a private temporary directory."
  },
  {
   "property": "C112",
   "status": "partial",
   "theorems": [
    "Emlearn.Neighbors.CText.C112_predict",
    "Emlearn.Neighbors.CText.C112_predict_classes_partial",
    "Emlearn.Neighbors.CText.C112_short_rows_refuted",
    "Emlearn.Neighbors.CText.C112_undefined_refuted"
   ],
   "note": "Exact answer for every row in C112_predict. The claim holds when no class index exceeds 9 (C112_predict_classes_partial). Refuted otherwise: with a class index of 10 or more among the neighbours the error code -5 is returned as if it were a class (C112_predict); rows with too few columns are all answered with -1 (C112_short_rows_refuted); with too many columns or a value outside int16 there is no defined result (C112_undefined_refuted). Values as the program reads them are arbitrary (`read`); the distance bound 2^30 of C17 is a hypothesis."
  },
  {
   "property": "C113",
   "status": "partial",
   "theorems": [
    "Emlearn.Bayes.CText.C113_rows",
    "Emlearn.Bayes.CText.C113_out_of_range_refuted",
    "Emlearn.Bayes.CText.C113_classes_refuted",
    "Emlearn.Bayes.CText.C113_predict_partial"
   ],
   "note": "C113_rows reduces predict(X) to the C function on each row, for all data. C113_predict_partial: for 2 to 10 classes within the domain of the fixed-point arithmetic, the answer is a class of highest exact score up to the allowances of C81. Refuted: more than ten classes (C113_classes_refuted) and parameters outside Q16 (C113_out_of_range_refuted) are converted without complaint, and then no prediction has a defined result."
  },
  {
   "property": "C114",
   "status": "partial",
   "theorems": [
    "Emlearn.Distance.CText.C114_distances",
    "Emlearn.Distance.CText.C114_scores",
    "Emlearn.Distance.CText.C114_predict_partial",
    "Emlearn.Distance.CText.C114_shape",
    "Emlearn.Distance.CText.C114_all_inliers_refuted",
    "Emlearn.Distance.CText.C114_boundary_refuted"
   ],
   "note": "C114_distances and C114_shape hold for all data in range; C114_predict_partial holds for rows further from the boundary than the allowance pyErr. Refuted: a row on the boundary, or inside it by less than half a millionth, is reported as an outlier (C114_boundary_refuted; scikit-learn and the C function say inlier); when all precisions are below 1/2000000 every row gets distance 0 and is an inlier (C114_all_inliers_refuted). The subtraction and comparison in Python doubles are taken as exact in sign, the printed decimals as read exactly."
  },
  {
   "property": "C115",
   "status": "partial",
   "theorems": [
    "Emlearn.Net.CText.C115_predict",
    "Emlearn.Net.CText.C115_columns_refuted",
    "Emlearn.Net.CText.C115_proba",
    "Emlearn.Net.CText.C115_two_outputs_refuted",
    "Emlearn.Net.CText.C115_proba_columns_refuted",
    "Emlearn.Net.CText.C115_single_layer_refuted",
    "Emlearn.Net.CText.C115_regress",
    "Emlearn.Net.CText.C115_outputs_refuted",
    "Emlearn.Net.CText.C115_class_partial",
    "Emlearn.Net.CText.C115_regress_close"
   ],
   "note": "Holds for every arithmetic as C115_predict, C115_proba (storedProba says what is stored), C115_regress; against the exact trained network within computable error bounds as C115_class_partial and C115_regress_close. Refuted parts: data with another number of columns is not refused but answered with -1 (C115_columns_refuted) or probability 0 for every class (C115_proba_columns_refuted); single-layer networks answer -2 (C115_single_layer_refuted); regressors with several outputs predict NaN (C115_outputs_refuted); with two softmax outputs the probability columns are swapped (C115_two_outputs_refuted). Both methods compile the loadable source. use_fixedpoint is not covered here (see C67)."
  },
  {
   "property": "C116",
   "status": "partial",
   "theorems": [
    "Emlearn.Mixture.CText.C116_rows",
    "Emlearn.Mixture.CText.C116_usage",
    "Emlearn.Mixture.CText.C116_columns",
    "Emlearn.Mixture.CText.C116_predict",
    "Emlearn.Mixture.CText.C116_near_best",
    "Emlearn.Mixture.CText.C116_score",
    "Emlearn.Mixture.CText.C116_empty",
    "Emlearn.Mixture.CText.C116_proba_close",
    "Emlearn.Mixture.CText.C116_score_close",
    "Emlearn.Mixture.CText.C116_predict_partial",
    "Emlearn.Mixture.CText.C116_ties_refuted"
   ],
   "note": "Any arithmetic: C116_rows, C116_score, C116_predict (first of the largest responsibilities after rounding to six decimals), C116_near_best, C116_columns, C116_empty. Against the exact densities within computable bounds: C116_proba_close, C116_score_close, C116_predict_partial (a lead of more than twice the error and a millionth is needed). That predict gives the most likely component is refuted by C116_ties_refuted: the probabilities are compared after printing with six decimals, so near ties go to the lower index. Python str and C strtod are parameters (only their composition matters)."
  },
  {
   "property": "C117",
   "status": "proved",
   "theorems": [
    "Emlearn.Mixture.C117_exact",
    "Emlearn.Mixture.C117_plain",
    "Emlearn.Mixture.CText.C117_proba_close",
    "Emlearn.Mixture.CText.C117_score_close"
   ],
   "note": "Exact: C117_exact (through convert_to_full, get_log_weights and the C functions, digamma arbitrary), C117_plain. Python in float arithmetic: C117_proba_close, C117_score_close; \u03b4 bounds the error of numpy in computing the weights. scikit-learn's own formula (sklLogProb) is transcribed from its source and is part of the specification."
  },
  {
   "property": "C118",
   "status": "partial",
   "theorems": [
    "Emlearn.Tools.C118_header",
    "Emlearn.Tools.C118_exact_partial",
    "Emlearn.Tools.C118_silent",
    "Emlearn.Tools.C118_lowpass_refuted",
    "Emlearn.Tools.C118_default_refuted",
    "Emlearn.Motion.C118_gravity_lost"
   ],
   "note": "The header parses and holds the coefficients rounded to six decimals (C118_header); exact when they are multiples of 1e-6 (C118_exact_partial). False in general: a first section with numerators below 5e-7 (usual for slow filters) makes the filter output 0 for ever (C118_silent; C118_gravity_lost in the motion preprocessor, C118_lowpass_refuted with a concrete low-pass), and with the tool's default arguments the DC gain is above 1.11 (C118_default_refuted)."
  },
  {
   "property": "C119",
   "status": "partial",
   "theorems": [
    "Emlearn.Recorder.C119_durable",
    "Emlearn.Recorder.C119_complete",
    "Emlearn.Recorder.C119_write_samples",
    "Emlearn.Recorder.C119_full_refuted",
    "Emlearn.Recorder.C119_boot",
    "Emlearn.Recorder.C119_restart_refuted",
    "Emlearn.Recorder.C119_late_refuted"
   ],
   "note": "Every schedule and every power failure: finished chunks are in the file, followed only by a beginning of the current one (C119_durable). Complete, read back as CSV, when the main loop gets W+2 steps per window (C119_complete). Return codes and file effect of write_samples exactly (C119_write_samples), start-up exactly (C119_boot). False: a full medium is reported as success (C119_full_refuted), a restart erases the recording even if the sensor is not ready (C119_restart_refuted), a late main loop records torn windows (C119_late_refuted). A row is read in one step; fopen succeeds in the concurrent model."
  },
  {
   "property": "C120",
   "status": "partial",
   "theorems": [
    "Emlearn.Trees.C120_leaf",
    "Emlearn.Trees.C120_big_endian_refuted",
    "Emlearn.Trees.C120_converted_regress",
    "Emlearn.Trees.C120_aligned_refuted",
    "Emlearn.Trees.C120_end_to_end",
    "Emlearn.Trees.C120_python"
   ],
   "note": "Proved end to end for binary32 float on a little-endian processor with the table at a multiple of 4: leaves read back exactly as rounded (C120_leaf), the library function (C120_converted_regress), the generated file run by MiniC (C120_end_to_end), predict(X) from Python (C120_python), error at most (T+2)/2^23 of the mean magnitude. False: a table at another address makes every call undefined (C120_aligned_refuted; uint8_t arrays have no alignment), and a big-endian processor reads 1.0 as about 4.6e-41 (C120_big_endian_refuted). Infinite and NaN leaves are not modelled."
  },
  {
   "property": "C121",
   "status": "partial",
   "theorems": [
    "Emlearn.Quant.Flt.C121_forward",
    "Emlearn.Quant.Flt.C121_order",
    "Emlearn.Quant.Flt.C121_round_trip",
    "Emlearn.Quant.Flt.C121_integers_partial",
    "Emlearn.Quant.Flt.C121_integers_power",
    "Emlearn.Quant.Flt.C121_integers_refuted",
    "Emlearn.Quant.Flt.C121_agree_partial",
    "Emlearn.Quant.Flt.C121_agree_refuted",
    "Emlearn.Quant.Flt.C121_overflow_refuted",
    "Emlearn.Quant.Flt.C121_fit",
    "Emlearn.Quant.Flt.C121_fit_refuted",
    "Emlearn.Quant.Flt.C121_python_round_trip",
    "Emlearn.Quant.Flt.C121_inverse_agree"
   ],
   "note": "Proved for every rounding to nearest: range, error below 1 + 2^-10, counters exact outside a band of 2^-9 (C121_forward), order (C121_order), values read back within 1 + 2^-7 steps (C121_round_trip), fitted transform in float64 (C121_fit), integers kept for power-of-two scales (C121_integers_power), Python read back within 1 + 2^-7 steps (C121_python_round_trip) and within 2^-6 steps of C (C121_inverse_agree). False, with what holds instead: stored integers can come back one nearer to zero (C121_integers_refuted, scale 7, 31 -> 30; C121_integers_partial), Python and C can differ by one (C121_agree_refuted, max_value 15; C121_agree_partial), a value in the fitted range is counted as overflow in C (C121_overflow_refuted, max_value 13), the fitted maximum is mapped to 32766 in Python (C121_fit_refuted, max_value 49)."
  },
  {
   "property": "C122",
   "status": "partial",
   "theorems": [
    "Emlearn.Trees.C122_inline_predict",
    "Emlearn.Trees.C122_inline_regress",
    "Emlearn.Trees.C122_inline_proba",
    "Emlearn.Trees.C122_inline_share",
    "Emlearn.Trees.C122_inline_predict_soft",
    "Emlearn.Trees.C122_same_leaf",
    "Emlearn.Trees.C122_loadable_proba",
    "Emlearn.Trees.C122_trained_predict",
    "Emlearn.Trees.C122_trained_regress",
    "Emlearn.Trees.C122_same_leaf_int",
    "Emlearn.Trees.C122_integer_predict_partial",
    "Emlearn.Trees.C122_hits_refuted",
    "Emlearn.Trees.C122_loadable_predict_soft",
    "Emlearn.Trees.C122_loadable_predict",
    "Emlearn.Trees.C122_loadable_integer_partial"
   ],
   "note": "Composition of C01, C83, C88, C89, C103 and C110 in binary32. Inline: class (C122_inline_predict, C122_inline_predict_soft), vote shares (C122_inline_share, within 1e-6), class probabilities (C122_inline_proba), regression (C122_inline_regress, within 1e-6 and (T+2)/2^23 of the mean magnitude); loadable class probabilities (C122_loadable_proba) and the class they decide (C122_loadable_predict_soft); hard voting (C122_loadable_predict, C122_loadable_integer_partial); regression C120_python. The generated comparison is the trained one for float features outside a band of 6e-7 + 2^-24 of the magnitudes around each threshold (C122_same_leaf), hence C122_trained_predict and C122_trained_regress against the trained model itself. Integer features: rows of whole numbers below 2^24 that hit no threshold (C122_same_leaf_int, C122_integer_predict_partial); a row equal to the integer part of a non-negative threshold takes the other branch (C122_hits_refuted: threshold 10.5, value 10, trained class 0, predicted 1; C06 states exactly when), which is why this claim is partial."
  },
  {
   "property": "C123",
   "status": "partial",
   "theorems": [
    "Emlearn.SizeTool.C123_platform",
    "Emlearn.SizeTool.C123_processor",
    "Emlearn.SizeTool.C123_cleanup",
    "Emlearn.SizeTool.C123_run_partial",
    "Emlearn.SizeTool.C123_check",
    "Emlearn.SizeTool.C123_tools_partial",
    "Emlearn.SizeTool.C123_tools_refuted",
    "Emlearn.SizeTool.C123_include_refuted",
    "Emlearn.SizeTool.C123_message_refuted"
   ],
   "note": "C123_run_partial is exact for names without blanks or characters special to make and the shell: success iff every step works, the exact command lines, and in every outcome a prefix of the complete run. C123_platform, C123_processor, C123_cleanup, C123_check hold without restriction. C123_include_refuted: an include directory with a blank is split and not passed. C123_tools_refuted: check_build_tools does not look for objcopy, which the makefiles' first target needs, so a clean report does not mean the build can work (C123_tools_partial: only the programs started directly are found). C123_message_refuted: the error for an unknown platform is not an f-string and names no platform. Not modelled: what the tools do to other files, decoding of their output, the host environment (CPPFLAGS)."
  },
  {
   "property": "C124",
   "status": "proved",
   "theorems": [
    "Emlearn.Motion.Flt.C124_features",
    "Emlearn.Motion.Flt.C124_binary32"
   ],
   "note": "C124_features: any arithmetic in the standard model, with formulas for the bounds; C124_binary32: binary32 and windows up to 128 frames, with plain numbers (per axis RMS 1.01E + V/10^5, magnitude RMS 1.75E + 2V/10^5, peak-to-peak 3.5E + 3V/10^6, spectrum W(1.75E + 3V/10^5), orientation (6E + 2V/10^6)/|g| + 10^-7; E is the error of the low-pass, V bounds the motion of one axis). Values that overflow, NaN inputs, a zero gravity vector (division by zero in C) and the overflow of the frame counter (int32_t) are outside. The magnitude spectrum is |real part|, see C77_magnitude_refuted."
  },
  {
   "property": "C125",
   "status": "proved",
   "theorems": [
    "Emlearn.Audio.Flt.C125_melspectrogram",
    "Emlearn.Audio.Flt.C125_edges",
    "Emlearn.Audio.Flt.C125_frequencies",
    "Emlearn.Audio.Flt.C125_bins",
    "Emlearn.Audio.Flt.C125_binary32"
   ],
   "note": "C125_melspectrogram: any arithmetic in the standard model, with formulas for the bounds; C125_edges, C125_frequencies, C125_bins: its hypotheses on the filters from the accuracy of the library functions; C125_binary32: a concrete case for arbitrary samples, within 1/100. The double-precision intermediate results of the mel scale and of the Hann window are part of the accuracy of these functions. An edge at a bin border (fmin = 0 always is one) needs its bin to be assumed. Overflow and NaN are outside. The real part instead of the magnitude is C72_refuted."
  },
  {
   "property": "C126",
   "status": "partial",
   "theorems": [
    "Emlearn.Trees.C126_hard",
    "Emlearn.Trees.C126_soft",
    "Emlearn.Trees.C126_loadable",
    "Emlearn.Trees.C126_inline_refuted"
   ],
   "note": "C126_loadable: true of the loadable code with up to 127 classes (another length gives EmlSizeMismatch and an untouched buffer). The inline code ignores out_length except for clearing and dividing: C126_inline_refuted is a concrete generated file that writes outside. C126_hard and C126_soft say exactly when, for every generated inline file: hard voting iff some tree votes for a class >= out_length, soft voting iff out_length < n_classes; otherwise the result is right, with zeros after the classes."
  }
 ]
}