{"id": "C01", "title": "Converted forest reaches the same leaf as the source trees", "statement": "After emlearn.convert() of a forest (flattening every tree, concatenating them, removing duplicate leaves), walking tree k of the converted forest with the generated comparison `feature < threshold` ends, for every feature vector, in a leaf holding exactly the leaf value that walking the k-th source tree with the same comparison ends in. No assertion in the conversion fires for well-formed source trees, including single-node trees.", "quantifier": "all forests of well-formed array-encoded binary trees of any size and depth, all leaf value types, all thresholds and feature vectors", "why_tests_cant": "tests convert a handful of fitted models; node numbering, leaf offsets across trees and de-duplication interact differently for every shape of forest", "anchors": ["emlearn/trees.py:flatten_tree", "emlearn/trees.py:flatten_forest", "emlearn/trees.py:remove_duplicate_leaves"]}
{"id": "C02", "title": "Every node and leaf reference in a converted forest is valid", "statement": "In every converted forest each decision node's child is either the index of an existing decision node or the (negative) code of an existing leaf, each root is the index of an existing decision node, and every decision node and every leaf is referenced (nothing is unreachable garbage).", "quantifier": "all well-formed source forests of any size", "why_tests_cant": "out-of-range references only show for particular shapes; quantifies over all trees", "anchors": ["emlearn/trees.py:assert_node_references_valid", "emlearn/trees.py:assert_forest_valid", "emlearn/trees.py:flatten_forest"]}
{"id": "C03", "title": "Leaf de-duplication is lossless, minimal and idempotent", "statement": "remove_duplicate_leaves() leaves every tree's prediction for every input unchanged, yields pairwise different leaves, never increases the number of leaves, and applying it a second time changes nothing.", "quantifier": "all valid forests (nodes, roots, leaves) and all inputs", "why_tests_cant": "depends on which leaves coincide across an arbitrary forest", "anchors": ["emlearn/trees.py:remove_duplicate_leaves"]}
{"id": "C04", "title": "Inference over a converted forest terminates and never reads out of bounds", "statement": "eml_trees_predict_tree() on the generated node table, started at any generated root, halts for every feature vector after at most as many steps as there are nodes, only ever reads node indices inside the table, only reads feature indices below n_features, and returns the index of an existing leaf.", "quantifier": "all converted forests whose encoded children fit the int16 fields, all feature vectors", "why_tests_cant": "non-termination/out-of-bounds is a property of every path of every model", "anchors": ["emlearn/eml_trees.h:eml_trees_predict_tree", "emlearn/trees.py:encode_child"]}
{"id": "C05", "title": "Child references survive the 16-bit node encoding", "statement": "Whenever code generation accepts a forest, reading the generated EmlTreesNode table (int16 relative jumps) back gives exactly the absolute child references of the forest, so that the loadable model walks exactly as the in-memory forest.", "quantifier": "all forests accepted by code generation, all node positions", "why_tests_cant": "the boundary is at 32768 nodes distance, far outside what unit tests train", "anchors": ["emlearn/trees.py:encode_child", "emlearn/trees.py:assert_valid_child", "emlearn/eml_trees.h:EmlTreesNode"]}
{"id": "C06", "title": "Integer-threshold models take the same branch as scikit-learn", "statement": "For an int16 feature value x and a fitted threshold t the generated code (`x < int(t)`) goes left exactly when scikit-learn (`x <= t`) goes left, so converted integer models reproduce the predictions of the source model on integer data.", "quantifier": "all integer feature values and all real thresholds; all trees", "why_tests_cant": "only disagrees for particular (value, threshold) pairs; a test set need not hit them", "anchors": ["emlearn/trees.py:generate_c_nodes", "emlearn/cgen.py:constant", "emlearn/eml_trees.h:eml_trees_predict_tree"]}
{"id": "C07", "title": "Hard-voting prediction is the plurality class, lowest index on ties", "statement": "For leaf_bits=0, eml_trees_predict() on a valid model (>=1 tree, leaf values < n_classes <= 30, matching feature length) returns a class in [0,n_classes) whose number of tree votes is maximal, and the smallest such class.", "quantifier": "all models with any number of trees and classes, all inputs", "why_tests_cant": "ties and vote distributions are unbounded in number", "anchors": ["emlearn/eml_trees.h:eml_trees_predict", "emlearn/eml_trees.h:eml_trees_predict_proba"]}
{"id": "C08", "title": "Tree class probabilities are a distribution over classes", "statement": "eml_trees_predict_proba() with hard voting returns, for each class, the fraction of trees voting for it: values in [0,1] that sum to 1. With 8-bit soft voting it returns the mean over trees of leaf byte / 255, values in [0,1].", "quantifier": "all valid models with >=1 tree, all inputs (exact arithmetic)", "why_tests_cant": "ranges over all forests and inputs", "anchors": ["emlearn/eml_trees.h:eml_trees_predict_proba"]}
{"id": "C09", "title": "Inline and loadable tree code predict the same class and probabilities", "statement": "For one converted classifier the inline code (nested ifs, static leaf table) and the loadable code (node table interpreted by eml_trees.h) return the same class and the same probabilities for every feature vector, for hard voting and for soft voting; for regressors they return the same value.", "quantifier": "all converted forests within the loadable limits (n_classes <= 30, int16 dtype), all inputs (exact arithmetic for soft-voting sums)", "why_tests_cant": "two independent code generators must agree on every model and input", "anchors": ["emlearn/trees.py:generate_c_inlined", "emlearn/trees.py:generate_c_loadable", "emlearn/eml_trees.h"]}
{"id": "C10", "title": "Tree API reports misuse as errors, not as predictions", "statement": "eml_trees_predict() returns a negative code (never a class) when the feature length differs from the model, when n_classes exceeds 30 or when the leaf format is unsupported; eml_trees_predict_proba() reports a size mismatch and eml_trees_regress() an error for a wrong output length or leaf format; and the error is visible as such through Wrapper.predict().", "quantifier": "all models, all lengths, all formats", "why_tests_cant": "error branches for every combination of sizes", "anchors": ["emlearn/eml_trees.h:eml_trees_predict", "emlearn/eml_trees.h:eml_trees_regress", "emlearn/trees.py:Wrapper._build_classifier"]}
{"id": "C11", "title": "Regression output is the mean of the reached leaf values", "statement": "eml_trees_regress() on a 32-bit-leaf model writes the arithmetic mean over the trees of the reached leaf values, and the result always lies between the smallest and the largest leaf value of the model.", "quantifier": "all regression models with >=1 tree, all inputs (exact arithmetic)", "why_tests_cant": "ranges over all forests and inputs", "anchors": ["emlearn/eml_trees.h:eml_trees_regress", "emlearn/trees.py:leaves_to_bytelist"]}
{"id": "C12", "title": "Leaf probability quantization is bounded, monotone and endpoint-exact", "statement": "quantize_probabilities_into_byte() maps every probability to a byte, maps 0 to 0 and 1 to 255, never orders two probabilities the wrong way round, and with n bits is within half a quantization step plus one byte unit of the exact value.", "quantifier": "all probabilities in [0,1] and all bit widths 2..8 (exact arithmetic)", "why_tests_cant": "continuum of inputs", "anchors": ["emlearn/trees.py:quantize_probabilities_into_byte"]}
{"id": "C13", "title": "The bundled quicksort sorts", "statement": "QSORT / eml_neighbors_sort_distances() leaves the array a permutation of its input, sorted by non-decreasing distance, for every length and content including duplicates, terminates, and never compares or swaps an index outside the array.", "quantifier": "all arrays of all lengths, all total preorders on keys", "why_tests_cant": "in-place quicksort with sentinels has unbounded input space; index errors appear on rare patterns", "anchors": ["emlearn/eml_qsort.h:QSORT", "emlearn/eml_neighbors.h:eml_neighbors_sort_distances"]}
{"id": "C14", "title": "The quicksort's fixed-size work stack never overflows", "statement": "During QSORT of N elements with N < 2^32 the explicit stack never holds more than 32 pending sub-ranges.", "quantifier": "all arrays with fewer than 2^32 elements, every step of the run", "why_tests_cant": "adversarial inputs for stack growth cannot be enumerated", "anchors": ["emlearn/eml_qsort.h:Q_LOOP", "emlearn/eml_qsort.h:Q_SUBFILES"]}
{"id": "C15", "title": "Integer square root is exact", "statement": "eml_isqrt(x) returns the largest r with r*r <= x, for every x in the supported domain, and terminates without signed overflow.", "quantifier": "all 0 <= x < 2^30", "why_tests_cant": "a billion inputs; the algorithm is a bit-by-bit loop", "anchors": ["emlearn/eml_neighbors.h:eml_isqrt"]}
{"id": "C16", "title": "Neighbour distance is the floored Euclidean distance", "statement": "eml_distance_euclidean_int16() returns floor(sqrt(sum of squared differences)) whenever that sum is below 2^30; it is symmetric, zero exactly for equal vectors.", "quantifier": "all int16 vectors of any length", "why_tests_cant": "unbounded lengths; overflow boundary", "anchors": ["emlearn/eml_neighbors.h:eml_distance_euclidean_int16"]}
{"id": "C17", "title": "Nearest-neighbour prediction is a majority label of k nearest items", "statement": "eml_neighbors_predict() returns a label that has the most votes among k stored items, where no item outside those k is strictly nearer than one inside, and the smallest such label; it reports an error when k exceeds the number of items, when sizes mismatch or when a voting label is outside [0,10).", "quantifier": "all models, all k, all inputs", "why_tests_cant": "depends on sort order, ties and votes for arbitrary data", "anchors": ["emlearn/eml_neighbors.h:eml_neighbors_predict", "emlearn/eml_neighbors.h:eml_neighbors_find_nearest", "emlearn/eml_neighbors.h:eml_neighbors_infer"]}
{"id": "C18", "title": "On-device learning: adding items behaves like a bounded append-only list", "statement": "After any sequence of eml_neighbors_add_item() calls the model holds exactly the accepted datapoints with their labels, in order; items are rejected, leaving the model unchanged, exactly when the length mismatches or max_items is reached; no write touches memory outside the data/label arrays.", "quantifier": "all histories of add calls", "why_tests_cant": "quantifies over histories", "anchors": ["emlearn/eml_neighbors.h:eml_neighbors_add_item"]}
{"id": "C19", "title": "EmlArray initialisation accepts exactly the buffers that fit", "statement": "eml_array_init_full() succeeds exactly when 1 <= n_dims <= 3, the first dimension is >= 1, the others >= 0 and the buffer holds the product of the dimensions times the value size; on success eml_array_storage_size() is at most the buffer length.", "quantifier": "all dimension lists, value sizes and buffer lengths (without 64-bit overflow of the product)", "why_tests_cant": "all integer combinations including negative dimensions", "anchors": ["emlearn/eml_array.h:eml_array_init_full", "emlearn/eml_array.h:eml_storage_size_array"]}
{"id": "C20", "title": "EmlArray element addressing is in bounds and collision free", "statement": "eml_array_data_2d() returns NULL exactly for out-of-range coordinates; otherwise the element lies inside the array's storage and two different coordinates never overlap.", "quantifier": "all 2-d arrays, all coordinates", "why_tests_cant": "all sizes and coordinates", "anchors": ["emlearn/eml_array.h:eml_array_data_2d"]}
{"id": "C21", "title": "eml_array_fill then read gives the fill value everywhere; sum is the total", "statement": "After eml_array_fill(v) every element reads as v converted to int16 and no byte outside the array changed; eml_array_sum() returns the sum over all elements.", "quantifier": "all 2-d int16 arrays and previous contents", "why_tests_cant": "all sizes/contents", "anchors": ["emlearn/eml_array.h:eml_array_fill", "emlearn/eml_array.h:eml_array_sum"]}
{"id": "C22", "title": "eml_array_shift_rows moves rows up and nothing else", "statement": "For -rows <= shift <= 0, row i of the result is row i-shift of the original for i < rows+shift and the other rows are unchanged; any other shift is rejected without changing anything.", "quantifier": "all 2-d arrays, contents and shifts", "why_tests_cant": "in-place overlapping copy; all sizes", "anchors": ["emlearn/eml_array.h:eml_array_shift_rows"]}
{"id": "C23", "title": "eml_array_copy_rows replaces exactly the addressed rows", "statement": "On success rows start..start+k-1 hold the source rows and all other rows are unchanged; sources that do not fit are rejected unchanged.", "quantifier": "all pairs of 2-d arrays and start rows", "why_tests_cant": "all sizes", "anchors": ["emlearn/eml_array.h:eml_array_copy_rows"]}
{"id": "C24", "title": "Shift-and-copy keeps a sliding window of the stream", "statement": "Feeding any stream of equally wide chunks by eml_array_shift_rows(-k) followed by eml_array_copy_rows(rows-k, chunk) always leaves the buffer holding the last `rows` rows of (initial contents ++ stream), in order.", "quantifier": "all histories of chunks with at most `rows` rows each", "why_tests_cant": "quantifies over histories", "anchors": ["emlearn/eml_array.h:eml_array_shift_rows", "emlearn/eml_array.h:eml_array_copy_rows"]}
{"id": "C25", "title": "CSV written by the writer is read back by the reader", "statement": "A file written with eml_csv_writer_write_header() and any number of eml_csv_writer_write_data() rows is read back by eml_csv_reader_read_header()/read_data() as exactly the same column strings, row by row in order, followed by 0 at end of file.", "quantifier": "all header names/cell texts free of separators, all numbers of rows and columns, all buffer sizes at least one line long", "why_tests_cant": "quantifies over histories and chunk boundaries", "anchors": ["emlearn/eml_csv.h:eml_csv_writer_write_header", "emlearn/eml_csv.h:eml_csv_writer_write_data", "emlearn/eml_csv.h:eml_csv_reader_read_header", "emlearn/eml_csv.h:eml_csv_reader_read_data"]}
{"id": "C26", "title": "The CSV reader fails with a negative code", "statement": "eml_csv_reader_read_data() returns the number of columns (= header columns) on success, 0 at end of input and a negative code on every failure.", "quantifier": "all reader states and inputs", "why_tests_cant": "all states", "anchors": ["emlearn/eml_csv.h:eml_csv_reader_read_data"]}
{"id": "C27", "title": "A CSV row that cannot be written leaves the file unchanged", "statement": "When eml_csv_writer_write_data() reports an error, nothing was appended to the stream.", "quantifier": "all rows and all number formats", "why_tests_cant": "failure in the middle of a row (crash point)", "anchors": ["emlearn/eml_csv.h:eml_csv_writer_write_data"]}
{"id": "C28", "title": "Feature quantizer saturates, counts and preserves order", "statement": "eml_quantizer_check_forward_int16() writes for every value the scaled value truncated toward zero and saturated to [-32767, 32767]; the under/overflow counts are exactly the numbers of values scaled below/above that range; larger inputs never quantize to smaller outputs; length mismatch is an error that writes nothing.", "quantifier": "all value arrays, lengths and scales (exact arithmetic)", "why_tests_cant": "continuum of inputs", "anchors": ["emlearn/eml_quantizer.h:eml_quantizer_check_forward_int16"]}
{"id": "C29", "title": "Quantize/dequantize round trip error is below one step", "statement": "For a positive scale and values that do not saturate, inverse(forward(x)) differs from x by less than 1/scale and never overshoots in magnitude; forward(inverse(q)) = q for every int16 q in range.", "quantifier": "all values and positive scales (exact arithmetic)", "why_tests_cant": "continuum of inputs", "anchors": ["emlearn/eml_quantizer.h:eml_quantizer_inverse_int16", "emlearn/preprocessing/quantizer.py:Quantizer"]}
{"id": "C30", "title": "Python Quantizer and C quantizer agree", "statement": "For int16 the Python Quantizer.transform with scale_ s and the C eml_quantizer_forward_int16 with the same scale give the same integers.", "quantifier": "all values, all scales (exact arithmetic)", "why_tests_cant": "continuum of inputs", "anchors": ["emlearn/preprocessing/quantizer.py:Quantizer.transform", "emlearn/eml_quantizer.h"]}
{"id": "C31", "title": "Fixed-point conversion loses less than one unit and inverts exactly", "statement": "from_float()/EML_Q16_FROMFLOAT truncates toward zero: to_float(from_float(x)) is within 2^-fraction_bits of x and never larger in magnitude; from_float(to_float(n)) = n.", "quantifier": "all reals, all fraction bit counts (exact arithmetic, no int32 overflow)", "why_tests_cant": "continuum", "anchors": ["emlearn/fixedpoint.py:from_float", "emlearn/fixedpoint.py:to_float", "emlearn/eml_fixedpoint.h"]}
{"id": "C32", "title": "Q16 division rounds to nearest, Q16 multiplication has bounded error", "statement": "eml_q16_div(a,b), b != 0, returns an integer nearest to a*65536/b (error at most one half) as long as it fits int32; eml_q16_mul(x,y) differs from x*y/65536 by less than (|x|+|y|)/256 + 1.", "quantifier": "all int32 operands", "why_tests_cant": "2^64 operand pairs", "anchors": ["emlearn/eml_fixedpoint.h:eml_q16_div", "emlearn/eml_fixedpoint.h:eml_q16_mul"]}
{"id": "C33", "title": "Naive Bayes prediction is the arg-max class, first on ties", "statement": "eml_bayes_predict() returns the smallest class index whose summed log-density is maximal over classes, and an error for fewer than two classes; all reads stay inside the summaries table and all writes inside the class buffer.", "quantifier": "all models with 2..10 classes and a full table, all inputs with one value per feature", "why_tests_cant": "all models and inputs", "anchors": ["emlearn/eml_bayes.h:eml_bayes_predict"]}
{"id": "C34", "title": "Naive Bayes log-density decreases with distance from the mean", "statement": "For one feature, a value further from the class mean never gets a higher fixed-point log-density than a nearer one, and values equally far on either side get the same density, within the no-overflow range.", "quantifier": "all means, positive stds and values in range", "why_tests_cant": "2^96 combinations", "anchors": ["emlearn/eml_bayes.h:eml_bayes_logpdf", "emlearn/eml_bayes.h:eml_bayes_logpdf_std"]}
{"id": "C35", "title": "Fixed-point log2 is correct to its precision", "statement": "eml_bayes_log2fix(x,p) is exact on powers of two, never exceeds 2^p*log2(x/2^p), and has bounded error below it; it terminates for every accepted precision.", "quantifier": "all x >= 1 and all precisions 1..30", "why_tests_cant": "all inputs x precisions", "anchors": ["emlearn/eml_bayes.h:eml_bayes_log2fix"]}
{"id": "C36", "title": "Neural network inference equals the composition of its layers", "statement": "eml_net_infer() succeeds on a valid model and leaves in the output buffer exactly f_L(...f_1(x)), f_i(x)=activation(W_i^T x + b_i), for any floating-point arithmetic.", "quantifier": "all networks with >=2 layers, any widths, any weights and inputs, any arithmetic", "why_tests_cant": "all networks", "anchors": ["emlearn/eml_net.h:eml_net_infer", "emlearn/eml_net.h:eml_net_forward"]}
{"id": "C37", "title": "Network predictions do not depend on earlier calls", "statement": "The class, probabilities or regression output computed for an input depend only on the model and the input, not on what the static activation buffers held before.", "quantifier": "all histories of previous calls, all chained networks", "why_tests_cant": "quantifies over histories", "anchors": ["emlearn/eml_net.h:eml_net_predict", "emlearn/eml_net.h:eml_net_predict_proba", "emlearn/eml_net.h:eml_net_regress"]}
{"id": "C38", "title": "Network class prediction is arg-max / 0.5 threshold and is consistent with predict_proba", "statement": "eml_net_predict() returns the first index of the largest output (or, with a single output, 1 exactly when it exceeds 0.5), and predict_proba() gives that class the largest probability.", "quantifier": "all networks and inputs", "why_tests_cant": "all networks and output vectors", "anchors": ["emlearn/eml_net.h:eml_net_predict", "emlearn/eml_net.h:eml_net_argmax", "emlearn/eml_net.h:eml_net_predict_proba"]}
{"id": "C39", "title": "Softmax outputs are a probability distribution that preserves order", "statement": "eml_net_softmax() yields values in (0,1] summing to 1, ordered like its inputs and unchanged by adding a constant to all inputs.", "quantifier": "all real vectors of any length >= 1 (exact arithmetic)", "why_tests_cant": "continuum", "anchors": ["emlearn/eml_net.h:eml_net_softmax"]}
{"id": "C40", "title": "Inline and loadable neural network code agree", "statement": "The inline network (net_float.jinja) and the loadable network (eml_net.h) return the same class for the same network and input, for any floating-point arithmetic.", "quantifier": "all chained networks, inputs, arithmetic", "why_tests_cant": "all networks", "anchors": ["emlearn/templates/net_float.jinja", "emlearn/net.py:c_generate_net_inline", "emlearn/eml_net.h:eml_net_infer"]}
{"id": "C41", "title": "Fixed-point arg-max returns the position of the maximum", "statement": "eml_argmax_fixed32() returns the index of the largest value.", "quantifier": "all non-empty int32 arrays", "why_tests_cant": "all arrays", "anchors": ["emlearn/eml_net_fixedpoint.h:eml_argmax_fixed32"]}
{"id": "C42", "title": "Keras conversion computes the same function", "statement": "convert_keras() of a Sequential model of Dense / Activation / ReLU / Softmax / Dropout layers yields weights, biases and activations whose network computes the same function as applying the layers in order.", "quantifier": "all layer lists, all inputs", "why_tests_cant": "all architectures", "anchors": ["emlearn/net.py:convert_keras"]}
{"id": "C43", "title": "Mahalanobis distance is the quadratic form and C and Python agree", "statement": "eml_mahalanobis_distance_squared() equals (x-m)^T P (x-m); it agrees with the Python squared_mahalanobis_distance() for every (even non-symmetric) P; it is non-negative for positive semidefinite P and zero at the mean.", "quantifier": "all dimensions, vectors, matrices (exact arithmetic)", "why_tests_cant": "continuum, all sizes", "anchors": ["emlearn/eml_distance.h:eml_mahalanobis_distance_squared", "emlearn/distance.py:squared_mahalanobis_distance"]}
{"id": "C44", "title": "Elliptic envelope flags outliers consistently in C and Python", "statement": "eml_elliptic_envelope_predict() returns 1 exactly for points beyond the decision boundary, and Wrapper.predict() gives -1 for exactly those points.", "quantifier": "all envelopes and points", "why_tests_cant": "boundary cases", "anchors": ["emlearn/eml_distance.h:eml_elliptic_envelope_predict", "emlearn/distance.py:Wrapper.predict"]}
{"id": "C45", "title": "Gaussian mixture scores and responsibilities are correct", "statement": "eml_mixture_predict_log_proba() is the weighted Gaussian log density of each component; eml_mixture_score() is the log of the sum of the component densities; eml_mixture_predict_proba() gives responsibilities in (0,1] that sum to one; covariance types other than full are refused.", "quantifier": "all models with >=1 component, all inputs (exact real arithmetic)", "why_tests_cant": "continuum", "anchors": ["emlearn/eml_mixture.h"]}
{"id": "C46", "title": "Expanding tied/diag/spherical covariances to full preserves densities", "statement": "convert_to_full() returns, for each covariance type, per-component matrices with which the 'full' formula gives the same squared Mahalanobis term as the type's own formula.", "quantifier": "all component/feature counts and values (exact arithmetic)", "why_tests_cant": "all shapes", "anchors": ["emlearn/mixture.py:convert_to_full"]}
{"id": "C47", "title": "IIR filter implements the cascade of second-order difference equations", "statement": "From zero state, the output sequence of eml_iir_filter() on any input sequence satisfies for each stage y[n] = b0 x[n] + b1 x[n-1] + b2 x[n-2] - a1 y[n-1] - a2 y[n-2], stages feeding each other; the filter is linear and stages do not disturb each other's state.", "quantifier": "all coefficient sets, numbers of stages, input sequences (exact arithmetic)", "why_tests_cant": "histories of unbounded length", "anchors": ["emlearn/eml_iir.h:eml_biquad_tdf2", "emlearn/eml_iir.h:eml_iir_filter"]}
{"id": "C48", "title": "FFT computes the discrete Fourier transform", "statement": "eml_fft_forward() on n = 2^k points with a table from eml_fft_fill() replaces (real, imag) by the DFT of the complex input; other lengths and wrong tables are rejected unchanged.", "quantifier": "all k, all inputs (exact arithmetic)", "why_tests_cant": "all sizes; in-place butterflies", "anchors": ["emlearn/eml_fft.h:eml_fft_forward", "emlearn/eml_fft.h:reverse_bits"]}
{"id": "C49", "title": "Sparse filterbank equals the dense filterbank", "statement": "eml_sparse_filterbank() (and the Python sparse_filterbank_reduce()) applied to sparse_filterbank(mels) gives the dense matrix product mels @ input.", "quantifier": "all filterbanks whose rows are of the form 0..0 nonzero..nonzero 0..0, all inputs", "why_tests_cant": "all sizes", "anchors": ["emlearn/signal.py:sparse_filterbank", "emlearn/signal.py:sparse_filterbank_reduce", "emlearn/eml_audio.h:eml_sparse_filterbank"]}
{"id": "C50", "title": "Mel filter reads stay inside the spectrum", "statement": "eml_audio_melspec() never reads outside the given spectrum: whenever the band edges do not fit it returns an error.", "quantifier": "all mel parameters and spectrum lengths", "why_tests_cant": "all parameter combinations", "anchors": ["emlearn/eml_audio.h:eml_audio_melspec"]}
{"id": "C51", "title": "Pareto front contains exactly the non-dominated points", "statement": "is_pareto_efficient_simple() marks a point efficient exactly when no other point is at least as good in every cost and better in one (keeping one representative of exact duplicates).", "quantifier": "all finite cost tables", "why_tests_cant": "all tables; the algorithm mutates its mask while iterating", "anchors": ["emlearn/evaluate/pareto.py:is_pareto_efficient_simple", "emlearn/evaluate/pareto.py:find_pareto_front"]}
{"id": "C52", "title": "Benchmark data generator is the Park-Miller sequence", "statement": "eml_lcg_parkmiller() maps every state s in [1, 2^31-2] to 48271*s mod (2^31-1), stays in that range forever and never overflows 32-bit arithmetic.", "quantifier": "all states, all numbers of steps", "why_tests_cant": "two billion states", "anchors": ["emlearn/eml_benchmark.h:eml_lcg_parkmiller"]}
{"id": "C53", "title": "Generated identifiers are valid C identifiers", "statement": "assert_valid_identifier() accepts a name exactly when it is a non-empty string of letters, digits and underscores not starting with a digit and not a C keyword.", "quantifier": "all strings", "why_tests_cant": "all strings", "anchors": ["emlearn/cgen.py:assert_valid_identifier", "emlearn/cgen.py:identifier_is_valid", "emlearn/creserved.py"]}
{"id": "C54", "title": "Generated C arrays have the declared size and exact integer contents", "statement": "array_declare() emits an initializer with exactly `size` elements, refuses a size that differs from the number of values, and for integer types parsing the emitted literals back gives the values truncated toward zero.", "quantifier": "all names, value lists and sizes", "why_tests_cant": "all lists", "anchors": ["emlearn/cgen.py:array_declare", "emlearn/cgen.py:constant"]}
{"id": "C55", "title": "Model conversion options are validated consistently", "statement": "trees.Wrapper accepts exactly method in {inline, loadable} (default inline), dtype int16_t only for loadable, at most 127 features for loadable and 10000 for inline, and normalises leaf_bits (1 -> 0, default 0 for classifiers and 32 for regressors); every accepted loadable model's header fields fit their C types.", "quantifier": "all option combinations", "why_tests_cant": "combinatorial", "anchors": ["emlearn/trees.py:Wrapper.__init__", "emlearn/trees.py:generate_c_loadable", "emlearn/convert.py:convert"]}
{"id": "C56", "title": "Every input row produces exactly one output row in the compiled-model harness", "statement": "CompiledClassifier.predict(X) returns one prediction per row of X, in order: the CSV sent to the compiled program is split by eml_test_read_csv() into exactly the rows and values that were serialized.", "quantifier": "all matrices", "why_tests_cant": "line buffer and value limits only matter for wide rows", "anchors": ["emlearn/common.py:run_classifier", "emlearn/eml_test.h:eml_test_read_csv", "emlearn/eml_test.h:eml_test_parse_csv_line"]}
{"id": "C57", "title": "predict_proba matrix is assembled completely", "statement": "CompiledClassifier.predict_proba(X) fills every entry [row][class] with the value the compiled program printed for that row and class.", "quantifier": "all numbers of rows and classes", "why_tests_cant": "all shapes", "anchors": ["emlearn/common.py:CompiledClassifier.predict_proba", "emlearn/common.py:build_classifier"]}
{"id": "C58", "title": "Overlapped windows tile the sensor stream", "statement": "Repeated read_overlapped_windows() calls deliver windows such that window k holds rows k*hop .. k*hop+window_length-1 of the input, for 0 < hop <= window_length.", "quantifier": "all streams, window and hop lengths, all numbers of calls", "why_tests_cant": "quantifies over histories", "anchors": ["examples/motion_recognition/tools/motion_process.c:read_overlapped_windows"]}
{"id": "C59", "title": "Sensor chunks delivered to the application are contiguous windows", "statement": "Each chunk the main loop processes consists of window_length consecutive sensor samples, under every interleaving of the reader thread and the main loop.", "quantifier": "all schedules of the two threads", "why_tests_cant": "interleavings", "anchors": ["platform_examples/zephyr/motion_recognition/src/sensor_reader.c:sensor_chunk_reader_task", "platform_examples/zephyr/motion_recognition/src/main.c:main"]}
{"id": "C60", "title": "Vector helpers stay inside their vectors", "statement": "eml_vector_set() writes exactly dest[location..location+len) and refuses (unchanged) any placement not inside dest; eml_vector_set_value(), eml_vector_view() and eml_signal_mean() act elementwise.", "quantifier": "all vectors and locations", "why_tests_cant": "all sizes", "anchors": ["emlearn/eml_vector.h"]}
{"id": "C61", "title": "CSV model export can be loaded back", "statement": "Wrapper.save(format='csv') succeeds for every converted model, and decoding the exported lines (with children relative to their node) gives back the forest's node structure, roots and feature/class counts.", "quantifier": "all converted forests", "why_tests_cant": "all forests", "anchors": ["emlearn/trees.py:Wrapper.save", "emlearn/trees.py:encode_child"]}
{"id": "C62", "title": "Reported model size is the size of the generated tables", "statement": "model_size_nodes/leaves() equal the number of decision nodes and unique leaves of the generated model, and model_size_bytes() equals the size in bytes of the generated node table plus the generated leaf table.", "quantifier": "all converted forests and leaf_bits", "why_tests_cant": "all forests", "anchors": ["emlearn/evaluate/trees.py"]}
{"id": "C63", "title": "Motion feature extraction reads only its own buffers", "statement": "For every accepted configuration motion_preprocessor_get_features() writes exactly get_feature_length() values, the first 8 the fixed features and the rest the configured FFT bins.", "quantifier": "all configurations accepted by set_fft_features, all window contents", "why_tests_cant": "all configurations", "anchors": ["examples/motion_recognition/motion_preprocessing.h"]}
{"id": "C64", "title": "Error codes print as their own name", "statement": "eml_error_str(code) returns, for every EmlError value, the text naming that error, and never reads outside its table for a valid code.", "quantifier": "all EmlError values", "why_tests_cant": "a table test would have to restate the table; the mapping between enum order and table order is a cross-definition invariant", "anchors": ["emlearn/eml_common.h:EmlError", "emlearn/eml_common.h:eml_error_str"]}
{"id": "C65", "title": "Fitted quantizer covers its range without clipping", "statement": "After Quantizer.fit() with a positive max_value (or with max_quantile=None on data that is not all zero) transform() clips no value of magnitude at most that maximum, in particular no training value, and maps the maximum to out_max.", "quantifier": "all data, all integer dtypes and positive out_max (exact arithmetic)", "why_tests_cant": "continuum of data sets", "anchors": ["emlearn/preprocessing/quantizer.py:Quantizer.fit", "emlearn/preprocessing/quantizer.py:Quantizer.transform"]}
{"id": "C66", "title": "Naive Bayes reports misuse instead of faulting", "statement": "eml_bayes_predict() returns a negative code when the model has fewer than two or more than EML_MAX_CLASSES classes or the number of values differs from the model's features, and a generated model never divides by zero.", "quantifier": "all models, inputs and lengths", "why_tests_cant": "all models and input lengths", "anchors": ["emlearn/eml_bayes.h:eml_bayes_predict", "emlearn/bayes.py:generate_c"]}
{"id": "C67", "title": "Fixed-point network predicts like the floating-point network", "statement": "A network saved with use_fixedpoint=True (inline inference) returns, for each input, the class of the float network up to quantization; at least its answer depends on the input.", "quantifier": "all networks, all inputs", "why_tests_cant": "must hold for every network and input; a test on one network whose expected class is the constant answer passes", "anchors": ["emlearn/eml_net_fixedpoint.h:eml_net_forward_q16", "emlearn/templates/net_fixedpoint.jinja", "emlearn/net.py:c_generate_net_inline"]}
{"id": "C68", "title": "scikit-learn MLP conversion computes the same function", "statement": "convert() of a fitted MLPClassifier/MLPRegressor with at least one hidden layer gives a network whose function is scikit-learn's forward pass (hidden activation on all layers but the last, output activation on the last); models without hidden layer are refused.", "quantifier": "all fitted perceptrons (any depth, widths, weights), all inputs", "why_tests_cant": "all architectures", "anchors": ["emlearn/net.py:convert_sklearn_mlp"]}
{"id": "C69", "title": "Array minimum and maximum", "statement": "eml_minmax() on a non-empty array returns the smallest and the largest value.", "quantifier": "all non-empty arrays", "why_tests_cant": "all arrays", "anchors": ["emlearn/eml_mixture.h:eml_minmax"]}
{"id": "C70", "title": "Dot product helper returns the dot product", "statement": "eml_dot_product(a, b, n) returns the sum of the products of the elements.", "quantifier": "all arrays", "why_tests_cant": "all arrays", "anchors": ["emlearn/eml_mixture.h:eml_dot_product"]}
{"id": "C71", "title": "Mel scale conversions are consistent", "statement": "eml_audio_mels_from_hz() and eml_audio_mels_to_hz() are inverse to each other and strictly increasing; the filter edges run from fmin to fmax and are evenly spaced in mel.", "quantifier": "all frequencies above -700 Hz, all filter counts and ranges (exact arithmetic)", "why_tests_cant": "real-valued inputs, all parameter sets", "anchors": ["emlearn/eml_audio.h:eml_audio_mels_from_hz", "emlearn/eml_audio.h:eml_audio_mels_to_hz", "emlearn/eml_audio.h:eml_audio_mel_center"]}
{"id": "C72", "title": "Mel spectrogram is mel-weighted power of the windowed DFT", "statement": "eml_audio_melspectrogram() outputs, per mel filter, the weighted sum of |X[k]|^2/n_fft where X is the DFT of the Hann-windowed input.", "quantifier": "all power-of-two n_fft, inputs, mel parameters (exact arithmetic)", "why_tests_cant": "real-valued inputs, all sizes", "anchors": ["emlearn/eml_audio.h:eml_audio_melspectrogram", "emlearn/eml_audio.h:eml_audio_power_spectrogram", "emlearn/eml_vector.h:eml_signal_hann_apply"]}
{"id": "C73", "title": "Mel filters are triangular", "statement": "eml_audio_melspec() outputs the sums of the spectrum weighted by triangular filters through neighbouring mel edges, evaluated at the bin frequencies, without normalisation.", "quantifier": "all spectra, even n_fft, mel parameters with 0 <= fmin < fmax <= samplerate/2 (exact arithmetic)", "why_tests_cant": "real-valued inputs, all parameter sets", "anchors": ["emlearn/eml_audio.h:eml_audio_melspec", "emlearn/eml_audio.h:eml_fft_freq"]}
{"id": "C74", "title": "find_pareto_front returns exactly the front", "statement": "find_pareto_front() returns, in order, exactly the input rows that no row dominates in (performance, cost) and that reach min_performance, for either direction of the performance metric.", "quantifier": "all tables, metric names, directions and minimum performances", "why_tests_cant": "all finite tables, column names", "anchors": ["emlearn/evaluate/pareto.py:find_pareto_front"]}
{"id": "C75", "title": "Struct declarations carry type, modifiers and initializers", "statement": "struct_declare() emits a declaration with the given modifiers, type and name, initialized with exactly the given values in order.", "quantifier": "all names, types, modifiers and value lists", "why_tests_cant": "all strings and lengths", "anchors": ["emlearn/cgen.py:struct_declare", "emlearn/cgen.py:struct_init"]}
{"id": "C76", "title": "FFT feature names identify their bins", "statement": "motion_preprocessor_get_feature_name() gives different FFT features different names, and the name states the frequency of the bin to one decimal.", "quantifier": "all feature indices, sampling rates, FFT lengths and feature ranges", "why_tests_cant": "all rates, lengths and indices", "anchors": ["examples/motion_recognition/motion_preprocessing.h:motion_preprocessor_get_feature_name"]}
{"id": "C77", "title": "Motion features are the statistics of the window", "statement": "motion_preprocessor_run() accepts exactly windows of the configured size, and sets the features to the normalised low-pass gravity estimate, RMS and peak-to-peak of the motion magnitude, RMS of each axis, and the FFT magnitude of the motion magnitude, for every window in a stream.", "quantifier": "all windows, histories of earlier windows, filter coefficients, window lengths up to the FFT length, all power-of-two FFT lengths (exact arithmetic)", "why_tests_cant": "real-valued windows and arbitrary histories of windows", "anchors": ["examples/motion_recognition/motion_preprocessing.h:motion_preprocessor_run", "examples/motion_recognition/motion_preprocessing.h:motion_preprocessor_init", "examples/motion_recognition/motion_preprocessing.h:motion_preprocessor_set_gravity_lowpass"]}
{"id": "C78", "title": "Nearest-neighbors model check", "statement": "eml_neighbors_check() returns OK exactly when the data, label and distance arrays are large enough for max_items items; a model that passes can take any history of add_item calls without leaving its arrays.", "quantifier": "all models, array lengths and histories", "why_tests_cant": "all lengths including those that do not fit int16", "anchors": ["emlearn/eml_neighbors.h:eml_neighbors_check", "emlearn/eml_neighbors.h:eml_neighbors_add_item"]}
{"id": "C79", "title": "Converted nearest-neighbors classifiers predict the majority of the nearest training rows", "statement": "Converting a fitted KNeighborsClassifier and calling predict() returns, for every query, the most frequent class among the n_neighbors training rows nearest to it; unsupported metrics, weights and inference methods are refused; inputs of wrong length are reported.", "quantifier": "all training sets, labels, queries and numbers of neighbors", "why_tests_cant": "all data sets and queries", "anchors": ["emlearn/neighbors.py:Wrapper", "emlearn/neighbors.py:c_generate_neighbors", "emlearn/neighbors.py:check_params_supported"]}
{"id": "C80", "title": "Fixed-point log-density is close to the Gaussian log-density", "statement": "The Q16 log-density used by eml_bayes_predict() is computed without overflow or division by zero for every input within 181 standard deviations of the mean, and differs from log2 of the normal density by at most z^2/760 + z/170 + 1/256 plus the error of the stored log2(std), where z is the distance from the mean in standard deviations.", "quantifier": "all Q16 means, positive standard deviations, logs and inputs in the domain", "why_tests_cant": "all combinations of four 32-bit values", "anchors": ["emlearn/eml_bayes.h:eml_bayes_logpdf", "emlearn/eml_bayes.h:eml_bayes_logpdf_std", "emlearn/eml_fixedpoint.h:eml_q16_mul", "emlearn/eml_fixedpoint.h:eml_q16_div"]}
{"id": "C81", "title": "Converted naive Bayes predicts the class of highest Gaussian likelihood", "statement": "For a converted Gaussian naive Bayes model and any input in the domain, predict() returns a class whose sum of exact log2 normal densities (equal priors) is within the accumulated error allowance of the best; a class leading by more than the allowance is always returned.", "quantifier": "all models with 2 to 10 classes, any number of features, all inputs in the domain", "why_tests_cant": "all models and inputs", "anchors": ["emlearn/eml_bayes.h:eml_bayes_predict", "emlearn/bayes.py:Wrapper", "emlearn/bayes.py:generate_c"]}
{"id": "C82", "title": "Consistency check of flattened forests rejects dangling references", "statement": "The conversion-time consistency check accepts a flattened forest exactly if every child reference is an existing node or leaf and every node and leaf is referenced; a forest that passes it can be walked without finding a missing node or leaf.", "quantifier": "all node tables, leaf lists and root lists", "why_tests_cant": "arbitrary tables", "anchors": ["emlearn/trees.py:assert_node_references_valid", "emlearn/trees.py:flatten_tree", "emlearn/trees.py:flatten_forest", "emlearn/trees.py:remove_duplicate_leaves"]}
{"id": "C83", "title": "Converted forests agree with scikit-learn's averaged probabilities", "statement": "For a forest converted with leaf_bits 2 to 8 and fewer than 2*(2^leaf_bits-2) classes, predict_proba() is within 1/(2*(2^leaf_bits-2)) + 1/255 of the mean of the trees' leaf class probabilities for every input, predict() returns a class within twice that tolerance of the best, and a class leading by more than that is always returned. A single decision tree with hard voting returns exactly the tree's class.", "quantifier": "all forests of well-formed trees, all feature vectors, all leaf_bits 2..8", "why_tests_cant": "all forests, all inputs", "anchors": ["emlearn/trees.py:quantize_probabilities_into_byte", "emlearn/trees.py:Wrapper", "emlearn/trees.py:generate_c_loadable", "emlearn/eml_trees.h:eml_trees_predict", "emlearn/eml_trees.h:eml_trees_predict_proba"]}
{"id": "C84", "title": "Network API is memory safe and reports the documented error codes on any EmlNet", "statement": "For any EmlNet structure, generated or hand-written, whose arrays have the sizes its fields declare, eml_net_predict, eml_net_regress and eml_net_predict_proba never read or write outside the arrays, whatever the layer shapes and inputs; a network with fewer than two layers or an unknown activation is reported as unsupported, a wrong input or output length or too small activation buffers as size mismatch, and predict returns the negated code, never a class.", "quantifier": "all EmlNet structures with arrays of the declared sizes, all inputs, all output lengths, any arithmetic", "why_tests_cant": "layer shapes, inputs and buffer contents are arbitrary", "anchors": ["emlearn/eml_net.h:eml_net_infer", "emlearn/eml_net.h:eml_net_predict", "emlearn/eml_net.h:eml_net_predict_proba", "emlearn/eml_net.h:eml_net_regress", "emlearn/eml_net.h:eml_net_forward"]}
{"id": "C85", "title": "Fixed-point arrays in generated code carry the values to one unit", "statement": "For every 32-bit fixed-point format and every list of numbers, the declared array has the C type of the format, exactly one integer per value, and each integer stands for a number less than one unit (2^-fraction_bits) from the value and not larger in magnitude; values below 2^integer_bits fit the 32-bit type. Other widths are refused.", "quantifier": "all formats, names, sizes and lists of numbers", "why_tests_cant": "values and formats are unbounded", "anchors": ["emlearn/cgen.py:array_declare_fixedpoint", "emlearn/fixedpoint.py:FixedPointFormat", "emlearn/fixedpoint.py:from_float"]}
{"id": "C86", "title": "Generated network source declares the network", "statement": "For every valid model name and every trained network with supported activations, the C source returned by saving the model in the loadable form, read back as C, declares under that name one EmlNet: as many layers as trained, each with its own number of inputs and outputs, activation and its own weight and bias arrays, every number within 5e-7 of the trained one, and two working buffers as large as the largest layer; running it computes the layers with those numbers. Invalid names, empty networks and unsupported activations raise.", "quantifier": "all model names, all networks (any number of layers, any sizes, any finite weights), all inputs", "why_tests_cant": "A test saves a few networks under one name; here every size, name and number is covered, including name clashes between the generated arrays and the digits of layer numbers.", "anchors": ["emlearn/net.py:c_generate_net_loadable", "emlearn/net.py:c_generate_layer_data", "emlearn/cgen.py:array_declare", "emlearn/cgen.py:struct_init"]}
{"id": "C87", "title": "convert() accepts exactly the documented estimators and options", "statement": "convert(estimator, kind, method, dtype, return_type, ...) returns a wrapper of the family its class name (or `kind`, when given) belongs to, for every documented class and every option the family takes, and raises otherwise: ValueError for an unknown class, an error for a method the family does not implement. Every documented class converts with default arguments. `kind` makes subclasses convert like the named class.", "quantifier": "all class names, kinds, methods, dtypes, return types and extra keywords", "why_tests_cant": "The option space is a product of free-form strings and keywords over six families; tests try a handful of combinations.", "anchors": ["emlearn/convert.py:convert", "emlearn/trees.py:Wrapper", "emlearn/net.py:Wrapper", "emlearn/distance.py:Wrapper", "emlearn/mixture.py:Wrapper", "emlearn/bayes.py:Wrapper", "emlearn/neighbors.py:Wrapper"]}
{"id": "C88", "title": "The generated inline C file, compiled as C, predicts what the trees say", "statement": "The text that save() writes for the 'inline' inference method of a tree model is a C program; calling <name>_predict (class: smallest class with most votes, or first class with largest probability total; regressor: mean of the printed leaf values) or <name>_predict_proba (shares of votes, or mean of the stored leaf bytes / 255, return value 0) in that program gives exactly the result of walking every tree with the given features, without undefined behaviour (no out-of-range access, overflow or use of unset memory).", "quantifier": "every valid forest (any number of nodes, trees, classes), every valid name, every feature type, every modifiers text, every feature vector (integer or float), every float arithmetic", "why_tests_cant": "tests compile and run a few trained models; the text, its parsing and its execution must agree for every forest and every input", "anchors": ["emlearn/trees.py: generate_c_inlined, Wrapper.save", "emlearn/cgen.py: constant, array_declare"]}
{"id": "C89", "title": "The generated loadable C file declares the model and hands it to the library", "statement": "The text that save() writes for the 'loadable' inference method of a tree model is a C program in which the variable <name> is an EmlTrees structure holding exactly the converted nodes, tree roots, leaf bytes and sizes; <name>_predict and <name>_predict_proba return what eml_trees_predict, eml_trees_regress1 and eml_trees_predict_proba compute for that structure. So for a trained hard-voting forest the C file returns the smallest class that most trained trees vote for.", "quantifier": "every valid forest, every model name accepted by the generator except type names and the names used inside the generated functions, every feature vector and length, every output buffer, every float arithmetic", "why_tests_cant": "tests compile and run a few trained models; text, parsing and execution must agree for every forest and every input", "anchors": ["emlearn/trees.py: generate_c_loadable, generate_c_nodes, generate_c_forest, Wrapper.save", "emlearn/eml_trees.h: EmlTrees, eml_trees_predict, eml_trees_predict_proba, eml_trees_regress1"]}
{"id": "C90", "title": "Generated network code, compiled as C, runs the trained network", "statement": "For a trained network with supported activation functions and rectangular weight matrices and an ordinary model name, the loadable C code that convert/save writes is a C program: its EmlNet variable has the trained layers (each weight as a float literal of six decimals, within half of 1e-6, with the right sign), two distinct buffers large enough for every layer; and calling <name>_predict, <name>_regress and <name>_regress1 gives what eml_net_predict, eml_net_regress and eml_net_regress1 give for that network: regress returns 0 and writes exactly the network's outputs, regress1 its only output (NAN on error), predict the class decided from the outputs, whatever the static buffers contained before.", "quantifier": "every list of dense layers, weight, model name (except the listed reserved ones), input vector, length, output array contents, buffer contents, float arithmetic", "why_tests_cant": "The text is generated: tests compile a few models and compare a few outputs; the claim is about every network, number and identifier, including names that collide with the generated code.", "anchors": ["emlearn/net.py: c_generate_net_loadable, c_generate_layer_data", "emlearn/cgen.py: array_declare, struct_init", "emlearn/eml_net.h: EmlNet, EmlNetLayer, eml_net_predict, eml_net_regress, eml_net_regress1"]}
{"id": "C91", "title": "Generated nearest-neighbors code, read as C, holds the training data and answers like the library", "statement": "The text written by save(name) for a nearest-neighbors model is C: it defines a variable of the given name that is the intended model (sizes, training values truncated to integers row by row, labels, number of neighbors). The code compiled by the Python wrapper is C too; calling its predict_func gives the class that the library function finds for the truncated values, i.e. a majority class of the k nearest training rows, or the negated error code; too many values or values outside int16 are undefined behaviour. The const arrays of a generated model are never written by eml_neighbors_add_item.", "quantifier": "all training sets with sizes in the ranges of the C fields, all valid names that are not names of types, all queries of any length, any floating-point behaviour", "why_tests_cant": "tests compile and run a few small models; the text depends on every value and size, and the run on the query length", "anchors": ["emlearn/neighbors.py: Wrapper, generate_c, c_generate_neighbors, neighbors_model_init", "emlearn/cgen.py: array_declare, struct_declare", "emlearn/eml_neighbors.h: eml_neighbors_predict, eml_neighbors_add_item"]}
{"id": "C92", "title": "Generated mixture code, read as C, holds the mixture and computes its log probabilities", "statement": "The text written by save(name) for a Gaussian mixture is C: it defines <name>_model with the sizes, the means, the full precision factors, the log determinants and log weights, each rounded to six decimals. Calling <name>_predict_log_proba, <name>_score or <name>_predict_proba runs the library function on that model: it stores the component values, the logarithm of the sum of exponentials, and the responsibilities, and passes on the error code. The length given by the caller is ignored.", "quantifier": "all mixtures with at least one component and one feature, all valid names except the library name, all inputs, output arrays of any length, any floating-point behaviour (exact arithmetic for the final values)", "why_tests_cant": "tests compile one or two fitted mixtures; the text depends on every number and size, and the rounding to six decimals only shows for small precisions", "anchors": ["emlearn/mixture.py: generate_code, get_covariance_type, Wrapper.save", "emlearn/cgen.py: array_declare", "emlearn/eml_mixture.h: eml_mixture_predict_log_proba, eml_mixture_score, eml_mixture_predict_proba"]}
{"id": "C93", "title": "Generated elliptic-envelope code, read as C, holds the envelope and computes the Mahalanobis distance", "statement": "The text written by save(name) for an EllipticEnvelope is C: it defines <name>_classifier with the number of features, the offset with every digit Python prints (also in exponent notation), and the means and precision matrix rounded to six decimals. <name>_predict(values, length) runs the library function on that structure and returns the squared Mahalanobis distance of the values; with a wrong length it returns 0 and not an error.", "quantifier": "all means and square precision matrices with at least one feature, every finite offset, all valid names except the library name, all inputs and lengths, any floating-point behaviour (exact arithmetic for the final value)", "why_tests_cant": "tests compile a few fitted envelopes; the text depends on every number, the size and the notation of the offset, and the rounding only shows on features of a large scale", "anchors": ["emlearn/distance.py: generate_code, Wrapper.save", "emlearn/cgen.py: array_declare", "emlearn/eml_distance.h: eml_elliptic_envelope_predict"]}
{"id": "C94", "title": "Generated naive Bayes code, read as C, holds the Q16 table and is the classifier", "statement": "The text written by save(name) for a Gaussian naive Bayes classifier is C: it defines <name>_model with the numbers of classes and features and, class by class and feature by feature, the mean, the standard deviation and its logarithm, converted to Q16 by the compiler from the printed numbers (in positional or exponent notation). <name>_predict(values, n) runs eml_bayes_predict on that model: inside the domain of the fixed-point arithmetic it returns a class that no other class beats by more than the error allowance.", "quantifier": "all tables with at least one class and one feature whose numbers are in the range of Q16, every conversion of decimal constants to double, all valid names except the library name, all inputs and lengths", "why_tests_cant": "tests compile a few fitted models; the text depends on every number and its notation, and numbers outside Q16 only fail for data of large scale", "anchors": ["emlearn/bayes.py: generate_c, c_tofixed, c_struct_init", "emlearn/eml_bayes.h: EmlBayesModel, eml_bayes_predict", "emlearn/eml_fixedpoint.h: EML_Q16_FROMFLOAT"]}
{"id": "C95", "title": "Files written by the window-function and mel-filterbank tools, read as C, are the tables they were computed from", "statement": "The file that eml-window-function writes is C: it defines an array with the window's values (six decimals) and a constant with its length. The file that eml-mel-filterbank writes is C: it defines the sparse tables and constants of the filters, and eml_sparse_filterbank called with these tables computes the product of the matrix (rounded to six decimals, so at most 0.5e-6 times the sum of the input magnitudes off) with every input. Line wrapping keeps the words of the code in order and no line is longer than --linewrap.", "quantifier": "all windows and band matrices within the range of int and 1e9, all identifier names, all line widths that the longest word fits on, all optional arguments; the wrapping itself for all texts and widths", "why_tests_cant": "tests compare a few tables; the wrapped text depends on the length of every number, and a narrow line width breaks identifiers only for some names", "anchors": ["emlearn/tools/window_function.py: window_function, main", "emlearn/tools/mel_filterbank.py: main","emlearn/signal.py: sparse_filterbank, sparse_filterbank_serialize, sparse_filterbank_reduce", "emlearn/cgen.py: array_declare, constant_declare", "emlearn/eml_audio.h: eml_sparse_filterbank"]}
{"id": "C96", "title": "Generated neural networks in float arithmetic stay within a computable bound of the trained network", "statement": "The code generated for a trained network, compiled and run with C float arithmetic (every operation rounded, constants written with six decimals and converted to float, expf/logf/tanhf with a stated accuracy), returns finite outputs within an explicit bound of the outputs of the trained network in exact arithmetic; the bound is computed layer by layer from the magnitudes of the weights and inputs. eml_net_predict returns the trained network's class whenever its margin is more than twice the bound.", "quantifier": "all networks (any layers and supported activations), all weights and inputs for which the computed magnitudes are in the range of float, all arithmetics that meet the standard model of floating-point rounding (binary32 round-to-nearest is proved to meet it)", "why_tests_cant": "tests compare a few networks with a tolerance chosen by hand; no test bounds the error of every network and input", "anchors": ["emlearn/eml_net.h: eml_net_forward, eml_net_inference_layer, eml_net_infer, eml_net_predict, eml_net_expit, eml_net_softmax, eml_net_relu", "emlearn/net.py: c_generate_net_loadable, c_array_declare", "emlearn/cgen.py: array_declare, constant"]}
{"id": "C97", "title": "Rounding error and decision of a generated elliptic envelope in float arithmetic", "statement": "For every covariance estimator whose means and precision matrix the converter can write, the generated C file, run with float arithmetic that rounds every operation correctly, returns for every input a finite squared Mahalanobis distance that is within a stated bound of the distance computed exactly with the trained constants (rounding of the literals to six digits, of the inputs, and of every operation included); and the outlier decision is the exact one for every input whose exact distance lies further from the boundary than that bound.", "quantifier": "all dimensions, means, precision matrices, boundaries and inputs without overflow; all float formats of the standard model, with IEEE binary32 as an instance", "why_tests_cant": "Error accumulation depends on the dimension, the coefficients and the input; tests compare a few points with a loose tolerance and never near the boundary.", "anchors": ["emlearn/eml_distance.h: eml_mahalanobis_distance_squared, eml_elliptic_envelope_predict", "emlearn/distance.py: generate_code", "emlearn/cgen.py: constant, array_declare"]}
{"id": "C98", "title": "Rounding error of the sparse filterbank in float arithmetic", "statement": "For every filterbank matrix the tool can write, eml_sparse_filterbank run with the tables of the generated file in float arithmetic that rounds every operation correctly returns, for every input and every previous content of the output buffer, finite values within a stated bound of the exact product of the original matrix and the input (rounding of the coefficients to six digits included).", "quantifier": "all matrices with contiguous bands, all sizes, names and inputs without overflow; all float formats of the standard model, with IEEE binary32 as an instance", "why_tests_cant": "The bound must hold for every matrix and every input, and for junk in the output buffer; tests use one mel filterbank and one input.", "anchors": ["emlearn/eml_audio.h: eml_sparse_filterbank", "emlearn/signal.py: sparse_filterbank, sparse_filterbank_serialize", "emlearn/cgen.py: array_declare"]}
{"id": "C99", "title": "Rounding error of IIR filters in float arithmetic, uniform in time", "statement": "A cascade of second-order sections run by eml_iir_filter from zero states in float arithmetic that rounds every operation correctly produces, for every bounded input sequence of any length, finite outputs that stay within a stated bound of the exact difference equations - one bound for all times, not one that grows with the number of samples - provided each section is stable with a known gain; every section with its poles inside the unit circle is stable in this sense.", "quantifier": "all cascades of stable sections, all coefficient errors, all bounded input sequences of any length, every time step; all float formats of the standard model, with IEEE binary32 as an instance", "why_tests_cant": "Errors feed back through the state for ever; a test of any finite length cannot show that they do not accumulate.", "anchors": ["emlearn/eml_iir.h: eml_biquad_tdf2, eml_iir_filter"]}
{"id": "C100", "title": "save() writes exactly the returned code to exactly the named file, or nothing", "statement": "Every save() method either raises and leaves every file as it was, or returns code and leaves the named file containing exactly that code and every other file unchanged. The name used in the code is the given one, or the part of the file name before its extension; without either ValueError is raised. Names that are not C identifiers, conflicting or unknown inference strategies and unknown formats are refused before the file is opened. If the process is killed during save(), the named file holds its old contents or a beginning of the new code, and no other file is affected.", "quantifier": "all names, paths, previous file system contents, generators, inference arguments and moments at which the process is killed", "why_tests_cant": "Tests save a few models to fresh files with well-formed names; they never look at other files, at failures over existing files, or at interruptions.", "anchors": ["emlearn/trees.py: Wrapper.save", "emlearn/net.py: Wrapper.save", "emlearn/distance.py: Wrapper.save", "emlearn/bayes.py: Wrapper.save", "emlearn/mixture.py: Wrapper.save", "emlearn/neighbors.py: Wrapper.save"]}
{"id": "C101", "title": "Reported program sizes are those of the linker sections", "statement": "For every table printed by `size -A` (file, header, one row per section with any alignment, total), the sizes reported for a program are: flash = .text + .data + .rodata, ram = .data + .bss, each taken from the last row recognised under that name (longest ending of letters, digits, underscores and dots, case ignored); missing .data, .rodata, .bss count 0, a missing .text makes the call fail. With plain distinct section names these are exactly the sections of those names. Whatever was printed, no sizes are reported unless the first two lines name an ELF file and the header.", "quantifier": "all well-formed size tables (any number of rows, any names, sizes, addresses, alignment); for the checks, all texts", "why_tests_cant": "a test parses a few captured outputs; the claim is about every section table a linker may produce, including repeated, missing and dashed names", "anchors": ["emlearn/evaluate/size.py: parse_binutils_size_a_output", "emlearn/evaluate/size.py: run_binutils_size"]}
{"id": "C102", "title": "The FFT in float is close to the exact transform", "statement": "For every size n = 2^L below 2^32, every table whose cosines and sines are accurate to tau and every input of finite numbers whose sum of magnitudes leaves room below the largest finite float: eml_fft_forward succeeds, every output is finite and differs from the exact discrete Fourier transform of the input by at most (g^L - 1) * sum|x| plus a term for subnormal results, with g = (1+u)(1+tau)(1+sqrt2(2u+u^2)). eml_fft_fill with library functions accurate to eps and arguments accurate to delta gives such a table with tau = sqrt2(eps+delta).", "quantifier": "all sizes, tables, inputs, and all arithmetics satisfying the standard model of floating point (binary32 among them)", "why_tests_cant": "tests compare a few transforms with numpy; the claim bounds the error of every output for every input and size", "anchors": ["emlearn/eml_fft.h: eml_fft_forward", "emlearn/eml_fft.h: eml_fft_fill"]}
{"id": "C103", "title": "Tree ensembles in float arithmetic", "statement": "In float arithmetic with correctly rounded operations: a hard-voting ensemble of up to 2^22 trees predicts exactly the smallest class with the most votes and reports each class's share up to one rounding; a regressor returns the mean of the leaf values up to (T+1)/2^23 of their mean magnitude; a soft-voting ensemble's probabilities are the mean leaf byte fractions up to (T+3)/2^23, and its prediction (loadable or inline) is a class within twice that of the best, the best itself when it leads by more; an inline regressor adds only the error of its printed constants.", "quantifier": "every ensemble, feature vector, leaf table, number of trees up to 2^22, and every arithmetic satisfying the standard model (binary32 proved to be one)", "why_tests_cant": "rounding errors depend on all leaf values, votes and the order of summation; tests see a few ensembles and cannot bound the error or exclude a tie decided wrongly", "anchors": ["emlearn/eml_trees.h: eml_trees_predict_proba, eml_trees_predict, eml_trees_regress", "emlearn/trees.py: generate_c_inlined"]}
{"id": "C104", "title": "The Python signal functions", "statement": "Called from Python: iirfilter(sos, x) with sos of shape (n,6) returns the cascade's output for every x, one value per sample; rfft(x) of 2^L samples returns the real part of the DFT and raises for any other length or dimension; melfilter and melspectrogram return the n_mels weighted sums and raise on inputs of another length; sparse_filterbank with the parts emlearn.signal.sparse_filterbank produced returns the matrix-vector product. No call reads or writes outside an array.", "quantifier": "every coefficient matrix, signal, length, mel configuration, filterbank matrix, and every content of the uninitialised output array", "why_tests_cant": "the arrays' lengths, shapes and contents are arbitrary; the out-of-range reads that exist give plausible numbers in most test runs", "anchors": ["bindings/eml_signal.cpp: iirfilter_py", "bindings/eml_audio.cpp: rfft_py, melfilter_py, melspectrogram_py, sparse_filterbank_py", "bindings/emlpy_common.hpp: EMLPY_PRECONDITION"]}
{"id": "C105", "title": "Structured log entries", "statement": "With logging enabled, every sequence of entries written with the EML_LOG macros is a logfmt text, one line per entry, from which the event names, keys and values are recovered in order, integers exactly and floats up to 0.00005; with logging disabled nothing is written whatever the arguments.", "quantifier": "every sequence of entries, every event name, key and value without blanks or newlines (no = in keys, no % in event names), every array and element format", "why_tests_cant": "whether a line can be parsed back depends on all the characters of names and values and on the sequence of macro uses", "anchors": ["emlearn/eml_log.h: EML_LOG_BEGIN, EML_LOG_ADD, EML_LOG_ADD_INTEGER, EML_LOG_ADD_BOOL, EML_LOG_ADD_FLOAT, EML_LOG_ADD_ARRAY, EML_LOG_END"]}
{"id": "C106", "title": "Installing the Arduino library", "statement": "install_arduino_library copies every eml_*.h header and VERSION.txt of the include directory, unchanged, into <libraries>/emlearn, creating the directory; an existing library is left untouched and an error raised unless update is set; whatever happens, nothing outside the library directory changes (except that the libraries directory may be created); a reported success means that the headers were copied.", "quantifier": "every file system content, directory order, include path, library path and update flag, and every way the installation can end", "why_tests_cant": "the effect depends on the whole file system, on names and on which step fails; a test looks at one temporary directory", "anchors": ["emlearn/arduino/install.py: install_arduino_library", "emlearn/utils/fileutils.py: ensure_dir_single"]}
{"id": "C107", "title": "Mixture models in float arithmetic", "statement": "With C float arithmetic instead of exact numbers, eml_mixture_predict_log_proba, eml_mixture_score and eml_mixture_predict_proba stay within an explicit error bound of the exact weighted log densities, log likelihood and responsibilities of the trained mixture, given that nothing overflows; this includes the six-decimal rounding of the generated constants.", "quantifier": "every number of components and features, all parameters, inputs and input errors in the range, every arithmetic that meets the standard model of rounding (in particular IEEE binary32), every generated text", "why_tests_cant": "rounding errors depend on all values and on the order of operations; tests compare a few predictions with a loose tolerance", "anchors": ["emlearn/eml_mixture.h: eml_mixture_predict_log_proba, eml_logsumexp, eml_mixture_score, eml_mixture_predict_proba, EML_LOG_2PI", "emlearn/mixture.py: generate_code"]}
{"id": "C108", "title": "Options of motion_process", "statement": "The command line of the motion recognition tool: every option given as -name value or --name value sets its field of the configuration, later ones win, unknown arguments are ignored, fields not named keep their default; an option without a value is reported and the program stops with status 1. Numbers are read as decimal text with an optional sign.", "quantifier": "every list of command line arguments (any texts, any number, any order)", "why_tests_cant": "a test tries a few command lines; the property is about every list of arguments, including values that look like options", "anchors": ["examples/motion_recognition/tools/motion_process.c: opt_parse_args, parse, MotionConfig, main"]}
{"id": "C109", "title": "The motion_process program", "statement": "For every input CSV file of sensor rows the tool accepts: it ends, hands the preprocessor exactly the windows that fit in the file, in order, and writes a header naming the features and classes followed by one line per window with its time, features, FFT bins and class probabilities, with exit status 0; unreadable files, other headers, windows that are too long are refused with their own status before the output is touched. Files whose last line has no newline or with lines of another number of columns are read as the same rows.", "quantifier": "every file of any number of rows, every contents of the rows, every window and hop length with 1 <= hop <= window <= 128, every sampling rate, filter coefficients, model and number format", "why_tests_cant": "the state of the filters runs through all windows and the read buffer is reused for every line; a test covers one recording", "anchors": ["examples/motion_recognition/tools/motion_process.c: main, read_overlapped_windows", "examples/motion_recognition/motion_preprocessing.h: motion_preprocessor_init, motion_preprocessor_run, motion_preprocessor_get_features, motion_preprocessor_get_feature_name", "emlearn/eml_csv.h: eml_csv_reader_read_header, eml_csv_reader_read_data, eml_csv_writer_write_header, eml_csv_writer_write_data"]}
{"id": "C110", "title": "predict, predict_proba and regression of a converted tree model, called from Python", "statement": "For a converted tree model and a matrix with one column per feature, predict(X) returns one prediction per row, in order: the plurality class of the trees (first class with the largest summed leaf probability for probability leaves, the mean leaf value for a regressor) for the row's values, each printed with 8 decimals, read back as float and converted to the feature type; predict_proba(X) has in entry (row, class) the model's probability of that class, with 6 decimals. A matrix with another number of columns, or with values outside the feature type, is not answered with a class.", "quantifier": "every converted forest, feature type, number of classes, both inference methods, every matrix with any number of rows whose lines fit the line buffer, every float arithmetic", "why_tests_cant": "the claim runs through generated C text, compiled code, standard input and output and parsing, for every matrix; tests compare a few trained models on a few data sets", "anchors": ["emlearn/trees.py: Wrapper._build_classifier, Wrapper.predict, Wrapper.predict_proba, Wrapper.save, generate_c_inlined, generate_c_loadable", "emlearn/common.py: CompiledClassifier, build_classifier, run_classifier", "emlearn/eml_test.h: eml_test_read_csv", "emlearn/eml_trees.h: eml_trees_predict"]}
{"id": "C111", "title": "A converted model keeps answering with itself, whatever else is converted", "statement": "After any sequence of conversions, predictions and changes of working directory, predict(X) and predict_proba(X) of a converted model give the answers of the program compiled from that model.", "quantifier": "every history of convert / predict / predict_proba / chdir calls, every number of models of every family, all data, every compiler behaviour (including compile errors)", "why_tests_cant": "tests convert one model and call it at once; interference between several models alive at the same time depends on the order of the whole history", "anchors": ["emlearn/common.py: build_classifier, run_classifier, CompiledClassifier", "emlearn/trees.py: Wrapper._build_classifier, Wrapper.predict, Wrapper.predict_proba", "emlearn/bayes.py: Wrapper", "emlearn/net.py: Wrapper", "emlearn/neighbors.py: Wrapper", "emlearn/distance.py: Wrapper"]}
{"id": "C112", "title": "Nearest-neighbour classifiers called from Python", "statement": "predict(X) of a converted KNeighborsClassifier answers every row, in order, with the smallest most frequent class among the k training rows nearest to it (training data and row truncated to whole numbers).", "quantifier": "every fitted classifier within int16 limits, every k, every number of rows and columns, all values, every float arithmetic", "why_tests_cant": "tests compare a few data sets; the chain from the Python object through generated C text, compile, CSV, standard output and parsing has to hold for all of them", "anchors": ["emlearn/neighbors.py: Wrapper, generate_c, c_predict", "emlearn/common.py: build_classifier, run_classifier, CompiledClassifier.predict", "emlearn/eml_neighbors.h: eml_neighbors_predict", "emlearn/cgen.py: array_declare"]}
{"id": "C113", "title": "Gaussian naive Bayes called from Python", "statement": "predict(X) of a converted GaussianNB answers every row, in order, with the class of the highest Gaussian log-probability of the fixed-point model, up to a stated error allowance.", "quantifier": "every fitted classifier, every number of classes, features and rows, all values inside the domain of the Q16 arithmetic", "why_tests_cant": "tests compare a few data sets; the chain from the Python object through generated C text, compile, CSV, standard output and parsing has to hold for all of them", "anchors": ["emlearn/bayes.py: Wrapper, generate_c", "emlearn/common.py: build_classifier, run_classifier, CompiledClassifier.predict", "emlearn/eml_bayes.h: eml_bayes_predict", "emlearn/fixedpoint"]}
{"id": "C114", "title": "Elliptic envelopes called from Python", "statement": "mahalanobis(X) of a converted EllipticEnvelope gives the squared Mahalanobis distance of each row, in order, up to a stated rounding allowance; predict(X) is 1 for the rows within the fitted boundary and -1 for the others; data with another number of columns is refused.", "quantifier": "every fitted envelope of every dimension, every number of rows, all values that do not overflow float, every offset, every float arithmetic meeting the standard error model", "why_tests_cant": "tests compare a few data sets; the chain from the Python object through generated C text, float arithmetic, CSV, standard output and parsing has to hold for all of them", "anchors": ["emlearn/distance.py: Wrapper, generate_code, squared_mahalanobis_distance", "emlearn/common.py: build_classifier, run_classifier, CompiledClassifier.predict", "emlearn/eml_distance.h: eml_elliptic_envelope_predict, eml_mahalanobis_distance_squared"]}
{"id": "C115", "title": "Neural networks called from Python", "statement": "predict(X) of a converted network answers every row, in order and independently of the other rows, with the class (or, for regressors, the output) of the trained network, up to a stated float error; predict_proba(X) gives the network's class probabilities; data or networks the compiled code cannot handle are refused.", "quantifier": "every trained network of any depth and widths, both inference methods, every number of rows, all values that do not overflow, every float arithmetic meeting the standard error model", "why_tests_cant": "tests compare three architectures on three rows; the chain from the Python object through generated C text, static buffers that persist across rows, CSV, standard output and parsing has to hold for all of them", "anchors": ["emlearn/net.py: Wrapper, c_generate_net_loadable", "emlearn/common.py: build_classifier, run_classifier, CompiledClassifier", "emlearn/eml_net.h: eml_net_predict, eml_net_predict_proba, eml_net_regress1"]}
{"id": "C116", "title": "Gaussian mixtures called from Python", "statement": "predict_proba(X), predict_log_proba(X), score_samples(X) and predict(X) of a converted mixture answer every row, in order, with the responsibilities, weighted log densities, log likelihood and most likely component of the fitted mixture, for every covariance type, up to a stated float error; data with another number of columns is refused.", "quantifier": "every mixture (any number of components and features, all four covariance types), every number of rows, all values that do not overflow, every float arithmetic meeting the standard error model", "why_tests_cant": "tests compare a few fitted mixtures on one data set; the chain from the estimator through the generated C text, a program run per row, its arguments and its printed six decimals has to hold for all of them", "anchors": ["emlearn/mixture.py: Wrapper, build_executable, predict, convert_to_full", "emlearn/eml_mixture.h: eml_mixture_score, eml_mixture_predict_proba"]}
{"id": "C117", "title": "Bayesian Gaussian mixtures", "statement": "A converted BayesianGaussianMixture, of every covariance type, gives scikit-learn's weighted log densities, responsibilities and log likelihood: the constants that scikit-learn adds during prediction (degrees of freedom, mean precision) are contained in the weights. In float arithmetic and called from Python the same holds up to a stated error.", "quantifier": "every Bayesian mixture (any number of components and features, all four covariance types, degrees of freedom shared or per component), every input, every float arithmetic meeting the standard error model", "why_tests_cant": "tests fit a few mixtures on one data set; that the terms moved into the weights add up to scikit-learn's formula is an identity over all parameters", "anchors": ["emlearn/mixture.py: get_log_weights, Wrapper.__init__", "emlearn/eml_mixture.h: eml_mixture_score, eml_mixture_predict_proba"]}
{"id": "C118", "title": "Gravity filter headers", "statement": "The C header that gravity_lowpass.py writes for a low-pass filter contains that filter: a program that includes it gets the designed number of coefficients, each within half a millionth, and filtering with them gives the designed filter's output; in particular a constant input (gravity) passes unchanged.", "quantifier": "every second-order-section filter (any number of sections, any coefficients), every identifier as name, every input signal, every sequence of sensor windows", "why_tests_cant": "tests look at one generated filter; that the printed coefficients still implement a low-pass depends on their magnitude, which depends on cut-off, sample rate and order", "anchors": ["examples/motion_recognition/tools/gravity_lowpass.py: main", "emlearn/cgen.py: constant, array_declare", "emlearn/eml_iir.h: eml_iir_filter", "examples/motion_recognition/motion_preprocessing.h: motion_preprocessor_set_gravity_lowpass, motion_preprocessor_run"]}
{"id": "C119", "title": "Recordings on the device", "statement": "The zephyr program records what the sensor delivers: its CSV file holds the header and all samples, each once and in order, one line each; write_samples reports success exactly when it stored all rows; a power failure loses nothing of finished chunks; a restart keeps what was recorded.", "quantifier": "every interleaving of reader thread, main loop and file system, every point of power failure, every sample, every content of the file before", "why_tests_cant": "a test can run only some interleavings and cannot cut the power between any two steps", "anchors": ["platform_examples/zephyr/motion_recognition/src/main.c: write_header, write_samples, main", "platform_examples/zephyr/motion_recognition/src/sensor_reader.c: sensor_chunk_reader_task", "emlearn/eml_csv.h: eml_csv_writer_write_header, eml_csv_writer_write_data", "emlearn/eml_fileio.h: eml_fileio_write"]}
{"id": "C120", "title": "Tree regressors with stored float leaves", "statement": "A tree regressor converted with method='loadable' returns the mean of what the trained trees return, up to the rounding of float: the leaf table holds the bytes of the leaf values, the C code reads each of them back as the nearest float, in C and, with six decimals, from Python.", "quantifier": "every list of well-formed trained trees within the limits of the format, every feature vector, every address of the table, both byte orders", "why_tests_cant": "a test compares a few models on one host; the byte order, the alignment of the table and the rounding of all sums are outside its reach", "anchors": ["emlearn/trees.py: leaves_to_bytelist, generate_c_loadable", "emlearn/eml_trees.h: eml_trees_regress, eml_trees_regress1"]}
{"id": "C121", "title": "Feature quantizer in floating point", "statement": "With rounding: the C quantizer (float) saturates, counts and keeps order, reads values back within one step, keeps stored integers, and computes the same integers as the Python quantizer (float64) for the same scale; both read stored integers back to nearly the same values; a fitted Python quantizer maps the fitted maximum to the largest integer.", "quantifier": "every rounding to nearest (any rule for ties) of binary32 and binary64, every scale from 2^-100 to 2^100, every value", "why_tests_cant": "rounding differences show only for particular scales and values; a test with a tolerance or with a few values misses them", "anchors": ["emlearn/eml_quantizer.h: eml_quantizer_check_forward_int16, eml_quantizer_forward_int16, eml_quantizer_inverse_int16", "emlearn/preprocessing/quantizer.py: Quantizer.fit, Quantizer.transform, Quantizer.inverse_transform"]}
{"id": "C122", "title": "Converted forests return what the trained trees return", "statement": "From Python, a converted forest returns what the trained trees say: the plurality of their classes, the share of their votes, the mean of their class probabilities or of their values, up to stated bounds for the stored bytes, the printed decimals and float; with float features this is the trained model's own answer for every row whose features are not too close to a threshold.", "quantifier": "every list of well-formed trained trees (up to four million), every matrix of rows, every class and every feature type", "why_tests_cant": "a test compares a few models on a few rows with a tolerance chosen to pass; the error composed from quantization, printed decimals, float sums and comparisons is never bounded", "anchors": ["emlearn/trees.py: Wrapper, generate_c_inlined, generate_c_loadable, flatten_forest, remove_duplicate_leaves, quantize_probabilities", "emlearn/eml_trees.h: eml_trees_predict_proba", "emlearn/common.py: CompiledClassifier"]}
{"id": "C123", "title": "Program size: what is built, with which tools, and what is left behind", "statement": "get_program_size(code, platform, mcu, include_dirs) accepts only the platforms avr and arm (and on arm only the four known processors), compiles exactly the given text with every include directory, links and converts it, and returns the sizes reported for the linked file, if and only if every tool works; the temporary directory is removed in every case. check_build_tools reports exactly the tools that are missing, so that after a clean report the build does not fail for lack of a tool.", "quantifier": "every program text, platform, processor and list of include directories, and every behaviour of the toolchain: which programs are installed, which command lines fail, what they print", "why_tests_cant": "tests run with one installed toolchain, or are skipped when there is none; missing tools, failing steps and unusual paths are never tried", "anchors": ["emlearn/evaluate/size.py: get_program_size, check_build_tools, check_programs, build_avr8_code, build_arm_cortex_code, run_binutils_size", "emlearn/platforms/avr/Makefile", "emlearn/platforms/arm-cortex/Makefile"]}
{"id": "C124", "title": "Motion features do not drift: rounding errors of the preprocessor are bounded for ever", "statement": "With a stable gravity low-pass, motion_preprocessor_run in float arithmetic returns 0 on every window, and after any number of windows each feature is within a fixed, explicit bound of the feature that the samples received so far have in exact arithmetic: orientation (direction of the low-passed acceleration), RMS of the motion per axis and of its magnitude, peak-to-peak magnitude, and every FFT bin.", "quantifier": "every sequence of windows of finite samples up to a given magnitude, any number of windows, any window length up to the FFT length, any two stable second-order sections, any float arithmetic with the standard rounding model (binary32 proved to be one)", "why_tests_cant": "tests compare a few short recordings with tolerances; errors that build up in the recursive filter over hours, worst-case inputs and cancellation in the gravity subtraction are not met", "anchors": ["examples/motion_recognition/motion_preprocessing.h: motion_preprocessor_run, motion_preprocessor_init, motion_preprocessor_set_gravity_lowpass", "emlearn/eml_iir.h: eml_iir_filter", "emlearn/eml_fft.h: eml_fft_forward"]}
{"id": "C125", "title": "Mel spectrogram in float: rounding errors are bounded", "statement": "eml_audio_melspectrogram in float arithmetic, with a power-of-two n_fft, buffers of that length and filter edges that fall in the same FFT bins as the exact edges, returns EmlOk within its buffers, and every mel coefficient is within an explicit bound of its value in exact arithmetic (mel-weighted sum of Re(X[k])^2 / n_fft of the Hann-windowed samples). The edges and bin frequencies are within explicit bounds computed from the accuracy of log10 and powf, and an edge falls in the exact bin unless it is closer to a bin border than the error of its position.", "quantifier": "all samples up to a given magnitude, all lengths 4 to 2^24, all mel parameters with 0 <= fmin < fmax <= samplerate/2, every float arithmetic with the standard rounding model and library functions of given accuracy (binary32 proved to be one)", "why_tests_cant": "tests compare a few signals with librosa at loose tolerances; cancellation in the filter slopes (difference of nearby edges), the clamping of weights and the spread of window and FFT errors over all inputs are not covered", "anchors": ["emlearn/eml_audio.h: eml_audio_melspectrogram, eml_audio_melspec, eml_audio_power_spectrogram, eml_audio_mel_center, eml_audio_mel_bin, eml_fft_freq", "emlearn/eml_vector.h: eml_signal_hann_apply", "emlearn/eml_common.h: eml_max, eml_min"]}
{"id": "C126", "title": "Tree probabilities stay within the caller's buffer", "statement": "<name>_predict_proba(features, length, out, out_length) of the generated tree code never writes beyond the out_length numbers of out: for every out_length it either returns 0 with the probabilities in the buffer, or an error code.", "quantifier": "all forests (hard and soft voting, inline and loadable), feature vectors, float arithmetics and buffer lengths", "why_tests_cant": "tests call it through the Python wrapper, which always passes n_classes numbers", "anchors": ["emlearn/trees.py: generate_c_inlined (predict_proba templates), generate_c_loadable", "emlearn/eml_trees.h: eml_trees_predict_proba"]}
