{
 "C01": "All source trees (arbitrary shape), all comparisons; model of flatten_tree/flatten_forest/remove_duplicate_leaves.",
 "C02": "References valid and every node/leaf referenced, for every converted forest.",
 "C03": "Prediction-preserving, pairwise distinct leaves, not more leaves, idempotent.",
 "C04": "Loop termination bound and in-bounds reads of nodes, features and leaves for every generated table.",
 "C05": "Full claim is false: a forward jump of exactly 32768 is accepted and wraps (C05_refuted); proved for all jumps the encoder can represent.",
 "C06": "Full claim is false: x < int(t) differs from x <= t exactly at characterised points (C06_branch_disagreement_exact, C06_refuted); agreement proved outside them and for half-integer thresholds.",
 "C07": "Plurality with lowest index on ties, for generated and for arbitrary valid tables.",
 "C08": "Exact arithmetic over an ordered field; rounding is covered by C103.",
 "C09": "Class and probabilities agree; regression values are printed with 6 decimals in inline code so full equality is false (C09_regress_refuted); proved for leaf values the text represents.",
 "C10": "C API part proved; the Python predict wrapper turns error codes into class numbers (C10_wrapper_refuted).",
 "C11": "Exact arithmetic over an ordered field.",
 "C12": "Exact arithmetic; bounds, endpoints and monotonicity.",
 "C13": "Permutation, sortedness, termination and in-bounds for every array of fewer than 2^36 elements (the fixed stack of 32 entries; array lengths are int in the code), over any strict weak order.",
 "C14": "Stack depth at most 32 for N < 2^32.",
 "C15": "Exact on [0, 2^30) and proved sharp: outside it the real code overflows or loops.",
 "C16": "Exact below 2^30 and sharp.",
 "C17": "Majority label of a set of k nearest, smallest on ties; error branches covered.",
 "C18": "Any sequence of add_item calls.",
 "C19": "Iff characterisation of accepted initialisations.",
 "C20": "NULL iff out of range; in bounds; disjoint.",
 "C21": "int16 arrays; unsupported element sizes rejected.",
 "C22": "All shifts, accepted and rejected.",
 "C23": "Full claim false because element size is not compared (C23_refuted); proved for equal element sizes.",
 "C24": "Any sequence of chunks.",
 "C25": "Any formatter producing clean non-empty text shorter than 20 characters; any buffers long enough for a line; whole-file round trip.",
 "C26": "False as stated: too few column pointers returns +1 (C26_refuted). Partial: with enough column pointers the outcomes are exactly characterised.",
 "C27": "False as stated: fields before a too long one are already written (C27_refuted). Partial: exact effect of every call.",
 "C28": "Exact arithmetic.",
 "C29": "Exact arithmetic.",
 "C30": "Exact arithmetic; also inverse directions for codes in [-32767,32767].",
 "C31": "Exact arithmetic.",
 "C32": "All integers; condition that the quotient fits 32 bits / the int product does not overflow.",
 "C33": "False as stated: the class scores are 32-bit fixed point and the density of a class more than 181 standard deviations away overflows (C33_overflow_refuted, a generated model of two separated classes). Proved: no access out of bounds ever, and whenever no arithmetic overflows the answer is the first arg-max; C81 shows no overflow happens in its domain. Plus the generated table layout.",
 "C34": "Within the no-overflow range, as the property says.",
 "C35": "False for precision 31 (endless loop) and when the true value does not fit 32 bits (C35_refuted); proved otherwise with error < 4 units.",
 "C64": "Two names are swapped (C64_refuted); proved for all other codes.",
 "C65": "Proved for signed dtypes; C65_unsigned_refuted: with an unsigned dtype negative data is cast out of range.",
 "C66": "False as stated (C66_refuted); proved for the class-count check and for non-zero standard deviations.",
 "C36": "For arbitrary arithmetic (no laws). C36_layer_textbook identifies the specification with W^T x + b and textbook activations over the reals. A single-layer network is refused (C36_single_layer_refused).",
 "C37": "Any sequence of predict/predict_proba/regress calls with inputs and output arrays of any length, over the same static buffers.",
 "C38": "Class part proved. The consistency part is false for networks with exactly two outputs: predict_proba treats output 0 as the probability of class 1 (C38_refuted, for every such network); proved for all other output counts.",
 "C39": "Exact real arithmetic, Real.exp/Real.log; any start value of the maximum search.",
 "C40": "Inline code as the templates define it agrees with loadable code (proved), but the inline generator itself always raises: C40_inline_generation_refuted. Inline code does not check the input length.",
 "C41": "False: -1 whenever the first value is a maximum. Proved on the complement.",
 "C42": "False when an activation layer follows a Dense layer that has its own activation (the activation is overwritten). Proved for models where each activation layer follows a Dense layer with linear activation.",
 "C67": "False: the layer computation is disabled (#if 0); the generated code answers the same for every input.",
 "C68": "Over any arithmetic (no laws used). The specification sklearnForward is scikit-learn's forward pass written out; reading coefs_ and intercepts_ as lists is the model's assumption.",
 "C43": "Exact arithmetic over any field; rounding is covered by C97.",
 "C44": "False exactly on the boundary (C44_refuted: every boundary point), proved elsewhere. C44_wrong_length_looks_like_outlier: a wrong input length returns the same number as an outlier.",
 "C45": "Exact real arithmetic, EML_LOG_2PI read as log(2*pi). C45_is_gaussian ties the formula to the Gaussian density. Input length is never checked by the code. Rounding is covered by C107.",
 "C46": "Exact arithmetic.",
 "C69": "Any linear order with the start values as bounds: infinities included, NaN excluded.",
 "C70": "False: the function is declared to return bool.",
 "C47": "Exact arithmetic over a commutative ring; every cascade, input sequence and stage count. Rounding is covered by C99.",
 "C48": "Exact complex arithmetic; every power-of-two length with the table eml_fft_fill() writes; rounding is covered by C102.",
 "C55": "Every option combination of the constructor. The header-field part is false: the number of classes is not checked, so 200 classes are stored as -56 and every predict_proba call fails (C55_refuted).",
 "C61": "Every converted forest without placeholder thresholds (no tree that is a single leaf); for a forest with a single-leaf tree the export raises (C61_refuted).",
 "C62": "Node and leaf counts, and bytes for leaf_bits = 32, are as reported; for class leaves the reported bytes miss one byte per leaf, for probability leaves k-1 bytes per leaf (exact difference proved; C62_refuted).",
 "C49": "Exact arithmetic over a commutative ring; Python and C; every band filterbank. Also proved: all-zero filters raise, interior zeros always fail in Python. Rounding is covered by C98.",
 "C50": "False as stated: every odd n_fft with fmax at Nyquist reads one past the spectrum (C50_refuted, reachable through the Python binding melfilter); exact characterisation of the out-of-bounds cases and safety elsewhere proved (-700 < fmin <= fmax, exact reals).",
 "C71": "Exact reals.",
 "C72": "False as stated: only the real part of the spectrum is used (C72_refuted); the exact function computed is proved.",
 "C73": "False at one bin per filter (C73_refuted): the centre bin above the centre frequency gets weight 1; exact weights proved.",
 "C51": "Every finite table over a linear order, any number of costs; also completeness of the front.",
 "C52": "Every 32-bit state; also full period 2^31-2 and the closed form of the benchmark data. Conversion to float not modelled.",
 "C53": "False as stated: a trailing newline is accepted (C53_refuted); exact accepted set proved for all strings.",
 "C54": "Text level: the declaration is read back. Integer types exact; float literals within 5e-7 (exact for <= 6 decimals); other types (str(val)) not modelled beyond the size check.",
 "C74": "False when the performance column is named mean_test_score (C74_refuted); proved for all other names.",
 "C75": "False as stated: modifiers are ignored (C75_refuted); type, name and initializers proved.",
 "C56": "Full characterisation for all matrices with non-empty rows: predict returns one prediction per row, in order, iff every serialized row fits the 2 KiB buffer, else raises; never wrong or shifted. C56_wide_refuted: rows of more than 186 values always raise, so the unconditional claim is false. float rounding inside sscanf is part of the modelled function.",
 "C57": "Every entry set for all shapes; C57_stale_probabilities: a row whose call fails silently reports the previous row's probabilities (generated program ignores the error).",
 "C58": "Full for 1 <= hop <= window, unbounded stream; C58_checks covers option validation; C58_bad_hop_faults: hop=0 or hop>window is accepted and faults. Simplification: CSV rows are modelled after parsing.",
 "C59": "Every schedule: no access out of bounds, chunks torn at most in a monotone way (C59_every_schedule_partial). Schedules in which no window is completed while a chunk is processed: every chunk is one window (C59_calm_partial). A condition on the schedule alone (W+2 main steps between completions): all windows, in order, none lost (C59_keeps_up). False in general (C59_refuted).",
 "C60": "set, set_value and mean full; C60_view_unchecked: eml_vector_view does not check its bounds.",
 "C63": "Proved for start <= end; C63_refuted: set_fft_features accepts start > end, after which get_features copies a negative size.",
 "C76": "The names as printed (snprintf modelled), for fixed and FFT features: all distinct when bins are at least 0.1 Hz apart (C76_all_names_distinct), and the printed frequency is within 0.05 Hz of the bin's (C76_name_value). C76_refuted: the decimal can be 10, and names repeat for closer bins.",
 "C77": "All of run proved in exact real arithmetic, including the FFT; C77_magnitude_refuted: the 'magnitude' is the absolute real part. frames_processed is unbounded (int32 in C).",
 "C78": "Sound for all lengths; complete below 2^15; C78_large_refuted: arrays of 2^15 or more values are refused because the parameter is int16_t.",
 "C79": "Proved for data and queries after truncation to integers (int16 range, squared distances < 2^30); C79_truncation_refuted: fractional data is truncated, giving a wrong class; C79_long_input_refuted: too long inputs overflow a stack array before the length check. Class indices are returned, not the original labels (wrapper.predict).",
 "C80": "Exact reals (Mathlib gaussianPDFReal); C80_domain_sharp: at 182 standard deviations the squaring overflows.",
 "C81": "Densities of the stored (Q16) parameters at the Q16 inputs; class priors of the estimator are ignored by the code and by the specification (equal priors). C81_converted bounds the distance of the stored parameters from the fitted ones.",
 "C82": "Proved: exact characterisation of what the check accepts. Missing/false (C82_refuted): leaf references of right children are never checked (the left ones are asserted twice), so a dangling right leaf reference passes.",
 "C83": "Exact arithmetic for probabilities; tree walk with the generated integer comparison. C83_class_bound_sharp: the class-count bound is sharp (leaf_bits=2, 4 equal classes: predict -1, reported as class 1). C83_hard_vote_differs: with default hard voting (leaf_bits=0) forests of several trees can disagree with the averaged probabilities.",
 "C84": "Safety and exact codes for networks with at least one layer. C84_no_layers_refuted: with zero layers predict reports unsupported but regress and predict_proba read layers[-1] first.",
 "C85": "Numbers are rationals; int64 range of numpy not modelled. str() of an integer is assumed to be its decimal text.",
 "C86": "The source text is read back by an independent reader (Cgen/Reader.lean). Excludes names ending in a line break, which the name check accepts (C53_refuted). Weights are finite rationals; the compiler's conversion of a decimal literal to float is not modelled.",
 "C87": "Exact acceptance table proved. False parts: EllipticEnvelope with the default method raises (C87_default_refuted); mixtures accept any method name (C87_unknown_method_refuted); a tree regressor subclass whose class name lacks 'Regressor' is converted as a classifier (C87_subclass_refuted). Reading the trained parameters and compiling are taken to succeed.",
 "C88": "The exact text (Trees/Text.lean) is read by a C lexer/parser (MiniC/Syntax.lean) and run by a C semantics (MiniC/Sem.lean, undefined behaviour = none). Specification size: MiniC. Integer features compare with the truncated threshold, float features with the threshold printed with six decimals. The name must not contain a newline (the regex of assert_valid_identifier lets a trailing one through, C53).",
 "C89": "Proved for every name except those in LoadArgs (C names used inside the generated functions, type names): C89_names_refuted shows that the generator accepts such names and that the code is then broken. The text model is Trees/Text.lean, the reader MiniC; the library functions are the models of Trees/CModel.lean. The number of features is reduced to int8_t by the library. C89_end_to_end_soft: the same from trained trees with probability leaves, in every float arithmetic with a linear order.",
 "C90": "The text model is that of C86; the C language is specified in MiniC/*, the structure reader readNetC and the library dispatch netLib in Net/TextRun.lean. Name collisions (features, n_features, out, out_length, eml_net, type names) are excluded; C90_names_refuted shows that the name check does not exclude them. Empty weight matrices and sizes beyond int32_t are excluded.",
 "C91": "The text is lexed, parsed and executed by the C subset in MiniC; eml_neighbors_predict itself is the function model of Neighbors/Model.lean on the structure read from the text. Names of types used in the text (int16_t, EmlNeighborsModel) pass the name check but give text that is not C (C91_names_refuted).",
 "C92": "The text is lexed, parsed and executed by the C subset in MiniC; the functions of eml_mixture.h are the model of Mixture/Model.lean on the structure read from the text. Refuted: precisions below 5e-7 are written as zero (C92_small_precision_refuted); the name eml_mixture passes the name check but gives functions that call themselves (C92_names_refuted).",
 "C93": "Text lexed, parsed and executed by MiniC; Python str(float) is modelled in Decimal.lean (positional and exponent notation) and read back by the C lexer. Refuted: precision entries below 5e-7 are written as zero, then the distance is 0 for every input (C93_small_precision_refuted); the name eml_elliptic_envelope gives a function that calls itself (C93_names_refuted). Not covered: nan and inf offsets; the local variable `class` is no C++ identifier.",
 "C94": "Text lexed, parsed and executed by MiniC; the macro EML_Q16_FROMFLOAT is read as truncation of double times 65536 with the range of int. C94_end_to_end composes the text with C33 and C81. Refuted: a number outside Q16 gives a text with undefined behaviour (C94_out_of_range_refuted); the name eml_bayes gives a function that calls itself (C94_names_refuted).",
 "C95": "textwrap.wrap (default options) is modelled, with expand_tabs, and its word splitting restricted to whitespace-separated words plus the forced cut of long words (the hyphen rule is excluded by the characters of the items: stated in Tools/Textwrap.lean); the files are lexed and parsed by MiniC. Refuted outside the hypotheses: a line width below the longest word cuts identifiers (C95_narrow_refuted), the name is not checked (C95_names_refuted), fmax is cut to an integer (C95_fmax_refuted).",
 "C96": "standard model of rounding (Float/Model.lean): each float operation whose exact result is in range is the exact result up to u relative (plus eta where it may be subnormal); binary32 with round-to-nearest is an instance (Float/Binary.lean, BinaryNet.lean). The accuracy of expf, logf and tanhf is a parameter uf. Overflow is excluded by NetRange, which is computed from the network; FMA contraction and extended precision are covered as far as they meet the standard model per operation (a fused multiply-add is not a composition of two rounded operations and is not covered).",
 "C97": "From the generated text through the C model to a bound on the exact distance; the decision is exact outside a margin of that bound. The standard model of floating point (each operation correct up to relative u plus absolute eta, no overflow) is a hypothesis that is proved for IEEE binary32 round-to-nearest-even in Float/Binary.lean and Float/BinaryOps.lean.",
 "C98": "From the generated text (C95_tables, any float type) through eml_sparse_filterbank to a bound on the exact matrix-vector product; standard model proved for binary32.",
 "C99": "C99_iir: run of the C model in rounded arithmetic; C99_stable: poles inside the unit circle imply a finite gain; C99_error: closed form of the smallest admissible bound per section. Coefficients are hypotheses (there is no generator of IIR code in the repository).",
 "C100": "C100_save is generic over the generator; C100_net, C100_trees, C100_refused instantiate it. C100_atomic_refuted shows that the last sentence cannot be strengthened to atomicity (it is not part of the claim). File system: a map from path strings to contents, POSIX path rules, no links.",
 "C101": "The regular expression is modelled by greedy runs (proved to find a match whenever some decomposition exists); ASCII character classes. Running the compiler and the size tool is not modelled: the table they print is the input.",
 "C102": "Standard model of rounding (u, eta, M); binary32 with rounding to nearest is proved to satisfy it. No fused multiply-add. cosf/sinf accuracy is a hypothesis.",
 "C103": "Standard model of rounding (Float/Model), with counting exact below 2^24; binary32 instance `treeArith`. The 4-byte decoding of regression leaves is a parameter (leafFloat); see C11 and C09 for the exact-arithmetic claims.",
 "C104": "Partial: wrong shapes are not all rejected. iirfilter does not check the number of columns (fewer than 6: reads outside the array; more: shifted coefficients); melfilter reads outside for odd n_fft; melspectrogram writes outside for n_mels > n_fft; sparse_filterbank checks neither limits nor coefficient count. Each has a _refuted theorem; the exact behaviour of iirfilter on every shape is C104_iirfilter_columns. Exact arithmetic for rfft/mel; arrays are C-contiguous, conversion by pybind11 not modelled.",
 "C105": "Partial: an array field is printed without '=' and cannot be read back as key and value, and an event name containing % is used as a printf format (C105_refuted). C105_array gives the exact text of every array field. Macro hygiene (the index i of the array macro) is not modelled.",
 "C106": "Partial: success is reported without copying anything when the include path contains a glob character ([, * or ?) or does not exist (C106_refuted). An update never removes outdated headers (C106_update_keeps). Modelled with Python's glob/fnmatch on POSIX; no symbolic links, permissions or concurrent changes; sys.platform lookup and argument parsing not modelled.",
 "C107": "Standard model of floating point (each operation correctly rounded up to u relative and eta absolute, no overflow, expf/logf accurate up to uf; the double expression of line 234 accurate up to uc). EML_LOG_2PI is proved to be log(2 pi) to 1e-8 (log2pi_close); binary32 instance and a mixture with three components proved. The bound is relative to sum (|x|+|mu|)|L|, as the code subtracts two dot products instead of x - mu.",
 "C108": "Complete for opt_parse_args as called by parse. C108_no_input_refuted: leaving out --input (or giving it without need) is not reported; fopen(NULL) follows, which is undefined behaviour. atoi outside int is undefined behaviour (none in the model).",
 "C109": "C109_process: exact contents of the output file and exit status for all well-formed files, in terms of the preprocessor of C77. C109_refusals: exit statuses of the refusals. Refuted: a last line without newline gets a stale last column, and a line with fewer columns is taken as a row while the rest of the read buffer is lost (C109_last_line_refuted, C109_short_line_refuted). Exact real arithmetic; strtod, printf and the model are parameters; writes and seeks always succeed; lines with more than ten columns after the header are not modelled.",
 "C110": "Composition of the text properties C88/C89 with the text of the wrapper functions and the harness C56/C57. Refuted parts: the number of columns is not checked: more columns write outside an array and values outside the integer type are undefined (C110_columns_refuted, C110_columns_loadable_refuted); with fewer columns a loadable model reports class 3 for every row (C110_short_rows_refuted), because error codes lose their sign in predict_wrapper; for the same reason a soft-voting model without any positive sum reports class 1 (C110_inline_predict_soft states this case). sscanf and the printed value of a float are parameters; nan and infinities are not modelled in the printed text. C110_loadable_soft: from trained trees with probability leaves to predict and predict_proba of the loadable method.",
 "C111": "Holds for tree models after every history (C111_tree_predict, C111_tree_proba): they compile at each call, because the cache attribute that _build_classifier tests is never assigned. For the other families it is refuted (C111_own_refuted, C111_chdir_refuted): every model of a family is compiled to the same relative path in the constructor, so the answer is that of the last converted model of the family in the current directory (exact: C111_predict_last, C111_proba_last); it holds until the next conversion of the family (C111_own_until_next_partial). The compiler and the executables are arbitrary functions. Concurrent processes and other writers of tmp/ are not modelled; mixture models build in a private temporary directory.",
 "C112": "Exact answer for every row in C112_predict. The claim holds when no class index exceeds 9 (C112_predict_classes_partial). Refuted otherwise: with a class index of 10 or more among the neighbours the error code -5 is returned as if it were a class (C112_predict); rows with too few columns are all answered with -1 (C112_short_rows_refuted); with too many columns or a value outside int16 there is no defined result (C112_undefined_refuted). Values as the program reads them are arbitrary (`read`); the distance bound 2^30 of C17 is a hypothesis.",
 "C113": "C113_rows reduces predict(X) to the C function on each row, for all data. C113_predict_partial: for 2 to 10 classes within the domain of the fixed-point arithmetic, the answer is a class of highest exact score up to the allowances of C81. Refuted: more than ten classes (C113_classes_refuted) and parameters outside Q16 (C113_out_of_range_refuted) are converted without complaint, and then no prediction has a defined result.",
 "C114": "C114_distances and C114_shape hold for all data in range; C114_predict_partial holds for rows further from the boundary than the allowance pyErr. Refuted: a row on the boundary, or inside it by less than half a millionth, is reported as an outlier (C114_boundary_refuted; scikit-learn and the C function say inlier); when all precisions are below 1/2000000 every row gets distance 0 and is an inlier (C114_all_inliers_refuted). The subtraction and comparison in Python doubles are taken as exact in sign, the printed decimals as read exactly.",
 "C115": "Holds for every arithmetic as C115_predict, C115_proba (storedProba says what is stored), C115_regress; against the exact trained network within computable error bounds as C115_class_partial and C115_regress_close. Refuted parts: data with another number of columns is not refused but answered with -1 (C115_columns_refuted) or probability 0 for every class (C115_proba_columns_refuted); single-layer networks answer -2 (C115_single_layer_refuted); regressors with several outputs predict NaN (C115_outputs_refuted); with two softmax outputs the probability columns are swapped (C115_two_outputs_refuted). Both methods compile the loadable source. use_fixedpoint is not covered here (see C67).",
 "C116": "Any arithmetic: C116_rows, C116_score, C116_predict (first of the largest responsibilities after rounding to six decimals), C116_near_best, C116_columns, C116_empty. Against the exact densities within computable bounds: C116_proba_close, C116_score_close, C116_predict_partial (a lead of more than twice the error and a millionth is needed). That predict gives the most likely component is refuted by C116_ties_refuted: the probabilities are compared after printing with six decimals, so near ties go to the lower index. Python str and C strtod are parameters (only their composition matters).",
 "C117": "Exact: C117_exact (through convert_to_full, get_log_weights and the C functions, digamma arbitrary), C117_plain. Python in float arithmetic: C117_proba_close, C117_score_close; δ bounds the error of numpy in computing the weights. scikit-learn's own formula (sklLogProb) is transcribed from its source and is part of the specification.",
 "C118": "The header parses and holds the coefficients rounded to six decimals (C118_header); exact when they are multiples of 1e-6 (C118_exact_partial). False in general: a first section with numerators below 5e-7 (usual for slow filters) makes the filter output 0 for ever (C118_silent; C118_gravity_lost in the motion preprocessor, C118_lowpass_refuted with a concrete low-pass), and with the tool's default arguments the DC gain is above 1.11 (C118_default_refuted).",
 "C119": "Every schedule and every power failure: finished chunks are in the file, followed only by a beginning of the current one (C119_durable). Complete, read back as CSV, when the main loop gets W+2 steps per window (C119_complete). Return codes and file effect of write_samples exactly (C119_write_samples), start-up exactly (C119_boot). False: a full medium is reported as success (C119_full_refuted), a restart erases the recording even if the sensor is not ready (C119_restart_refuted), a late main loop records torn windows (C119_late_refuted). A row is read in one step; fopen succeeds in the concurrent model.",
 "C120": "Proved end to end for binary32 float on a little-endian processor with the table at a multiple of 4: leaves read back exactly as rounded (C120_leaf), the library function (C120_converted_regress), the generated file run by MiniC (C120_end_to_end), predict(X) from Python (C120_python), error at most (T+2)/2^23 of the mean magnitude. False: a table at another address makes every call undefined (C120_aligned_refuted; uint8_t arrays have no alignment), and a big-endian processor reads 1.0 as about 4.6e-41 (C120_big_endian_refuted). Infinite and NaN leaves are not modelled.",
 "C121": "Proved for every rounding to nearest: range, error below 1 + 2^-10, counters exact outside a band of 2^-9 (C121_forward), order (C121_order), values read back within 1 + 2^-7 steps (C121_round_trip), fitted transform in float64 (C121_fit), integers kept for power-of-two scales (C121_integers_power), Python read back within 1 + 2^-7 steps (C121_python_round_trip) and within 2^-6 steps of C (C121_inverse_agree). False, with what holds instead: stored integers can come back one nearer to zero (C121_integers_refuted, scale 7, 31 -> 30; C121_integers_partial), Python and C can differ by one (C121_agree_refuted, max_value 15; C121_agree_partial), a value in the fitted range is counted as overflow in C (C121_overflow_refuted, max_value 13), the fitted maximum is mapped to 32766 in Python (C121_fit_refuted, max_value 49).",
 "C122": "Composition of C01, C83, C88, C89, C103 and C110 in binary32. Inline: class (C122_inline_predict, C122_inline_predict_soft), vote shares (C122_inline_share, within 1e-6), class probabilities (C122_inline_proba), regression (C122_inline_regress, within 1e-6 and (T+2)/2^23 of the mean magnitude); loadable class probabilities (C122_loadable_proba) and the class they decide (C122_loadable_predict_soft); hard voting (C122_loadable_predict, C122_loadable_integer_partial); regression C120_python. The generated comparison is the trained one for float features outside a band of 6e-7 + 2^-24 of the magnitudes around each threshold (C122_same_leaf), hence C122_trained_predict and C122_trained_regress against the trained model itself. Integer features: rows of whole numbers below 2^24 that hit no threshold (C122_same_leaf_int, C122_integer_predict_partial); a row equal to the integer part of a non-negative threshold takes the other branch (C122_hits_refuted: threshold 10.5, value 10, trained class 0, predicted 1; C06 states exactly when), which is why this claim is partial.",
 "C123": "C123_run_partial is exact for names without blanks or characters special to make and the shell: success iff every step works, the exact command lines, and in every outcome a prefix of the complete run. C123_platform, C123_processor, C123_cleanup, C123_check hold without restriction. C123_include_refuted: an include directory with a blank is split and not passed. C123_tools_refuted: check_build_tools does not look for objcopy, which the makefiles' first target needs, so a clean report does not mean the build can work (C123_tools_partial: only the programs started directly are found). C123_message_refuted: the error for an unknown platform is not an f-string and names no platform. Not modelled: what the tools do to other files, decoding of their output, the host environment (CPPFLAGS).",
 "C124": "C124_features: any arithmetic in the standard model, with formulas for the bounds; C124_binary32: binary32 and windows up to 128 frames, with plain numbers (per axis RMS 1.01E + V/10^5, magnitude RMS 1.75E + 2V/10^5, peak-to-peak 3.5E + 3V/10^6, spectrum W(1.75E + 3V/10^5), orientation (6E + 2V/10^6)/|g| + 10^-7; E is the error of the low-pass, V bounds the motion of one axis). Values that overflow, NaN inputs, a zero gravity vector (division by zero in C) and the overflow of the frame counter (int32_t) are outside. The magnitude spectrum is |real part|, see C77_magnitude_refuted.",
 "C125": "C125_melspectrogram: any arithmetic in the standard model, with formulas for the bounds; C125_edges, C125_frequencies, C125_bins: its hypotheses on the filters from the accuracy of the library functions; C125_binary32: a concrete case for arbitrary samples, within 1/100. The double-precision intermediate results of the mel scale and of the Hann window are part of the accuracy of these functions. An edge at a bin border (fmin = 0 always is one) needs its bin to be assumed. Overflow and NaN are outside. The real part instead of the magnitude is C72_refuted.",
 "C126": "C126_loadable: true of the loadable code with up to 127 classes (another length gives EmlSizeMismatch and an untouched buffer). The inline code ignores out_length except for clearing and dividing: C126_inline_refuted is a concrete generated file that writes outside. C126_hard and C126_soft say exactly when, for every generated inline file: hard voting iff some tree votes for a class >= out_length, soft voting iff out_length < n_classes; otherwise the result is right, with zeros after the classes."
}