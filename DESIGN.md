# Formal model of emlearn in Lean 4 - design

Source: `/repo` (emlearn/emlearn, read as text, never run).  Properties: `properties.jsonl` (C01..).
Lean project: `lean/`; one directory per area: `Verif/<Area>/Model.lean` (model, every definition cites
the `/repo` lines), `Verif/<Area>/Lemmas*.lean` (helper lemmas), `Verif/Props/<Area>.lean`
(specification definitions + the property theorems + non-vacuity examples).  `MANIFEST.json` maps properties to theorems.

## Trusted base

* Lean 4.33.0 kernel.
* Axioms: at most `propext`, `Classical.choice`, `Quot.sound` for every theorem (see "Axioms" at the end).  No axiom is added, no
  compiled evaluation is used.
* The reading of `/repo` expressed in the `Model.lean` files (no extraction; the code is never run).
* Modelling conventions:
  * C memory is modelled per object (a list or a function from index to value per array).  An access outside the object is
    an explicit failure (`none`) wherever the property is about bounds; elsewhere totalised reads are guarded by length hypotheses.
  * C integers are `Int`/`Nat`; where the property is about overflow or width the wrap (`int16_t` fields, `uint8_t`) or the
    absence of overflow is stated explicitly.
  * Floating point: (a) where no arithmetic law is needed the model is parametric in an *arbitrary* carrier and operations,
    so that the theorem covers IEEE arithmetic including NaN; (b) where laws are needed (means, DFT, softmax ...) the theorem is about exact arithmetic in
    a linear ordered field, `Rat`, `Real` or `Complex`, and says so.
  * `printf`/`strtod`/`numpy`/`scikit-learn`/`keras` internals, the C compiler, the OS, pipes, files and the CPU are not modelled;
    what is assumed of them is a parameter of the model.
  * Python exceptions and failing `assert`s, and C error codes, are values.

## What is modelled / not modelled

Modelled (function by function; each definition cites file and lines):

| source | Lean |
|---|---|
| `emlearn/trees.py` (flatten, dedup, self-check, quantisation, inline/loadable/csv generation, Wrapper logic), `eml_trees.h` | `Trees/*` |
| `emlearn/neighbors.py`, `eml_neighbors.h`, `eml_qsort.h`, `eml_distance_euclidean_int16`, `eml_isqrt` | `Neighbors/*` |
| `eml_array.h`, `eml_csv.h`, `eml_vector.h` | `Array`, `Csv`, `Vector` |
| `eml_quantizer.h`, `preprocessing/quantizer.py`, `eml_fixedpoint.h`, `fixedpoint.py` | `Quant`, `Fixed` |
| `eml_bayes.h`, `bayes.py` | `Bayes/*` |
| `eml_net.h`, `net.py`, `net_float.jinja` | `Net/*` |
| `eml_distance.h`, `distance.py`, `eml_mixture.h`, `mixture.py` | `Distance`, `Mixture` |
| `eml_iir.h`, `eml_fft.h`, `eml_signal.h`, `signal.py`, `eml_audio.h` (mel part) | `Signal/*` |
| `eml_benchmark.h` (generator), `evaluate/pareto.py`, `evaluate/trees.py` | `Evaluate/*` |
| `cgen.py`, `convert.py`, `common.py` + `eml_test.h` (text protocol) | `Cgen`, `Convert`, `Harness` |
| `examples/motion_recognition`, zephyr `sensor_reader.c` | `Motion/*` |

Generated C text (C88-C95): the text that the generators produce is a list of characters; it is lexed, parsed and executed by a small formal semantics of
C (`MiniC/Syntax.lean` lexer and parser, `MiniC/Sem.lean` evaluation, `MiniC/Call.lean` reading of initialised globals). These files are *specification*: they say what the text
means and belong to the trusted reading of C. The same holds for the functions that read a structure out of the parsed program and
pass it to a library function: `readTrees`/`treesLib` (`Trees/TextRun.lean`), `readNetC`/`netLib` (`Net/TextRun.lean`), `readModel`/`neighborsLib` (`Neighbors/TextRun.lean`), `Mixture/TextRun.lean`, `Distance/TextRun.lean` and `macroVal`/`readBayes`/`bayesLib` (`Bayes/TextRun.lean`).
The subset: file-scope declarations with brace initialisers, functions with scalar and pointer parameters, `if`/`else`, counted `for` loops, assignments, calls, casts,
integer types with their ranges, `float` as an arbitrary carrier with arbitrary operations. Signed overflow, out-of-range conversion from float, out-of-bounds access, reading an uninitialised
variable, redeclaration in a scope and use of an undeclared name are failures (`none`). Names declared by included headers and the order of function definitions are not checked.

Not modelled: pybind11's own conversion of Python objects (the bindings themselves: C104), setup.py and other build scripts, plotting, the timing part of benchmarks,
the sklearn/keras training code, C++ wrappers; rounding of IEEE floats where a theorem says "exact arithmetic" (the theorems of C96 and later float properties are about rounded arithmetic: the standard
model, each operation correctly rounded or better than `u`, no fused multiply-add, no flush to zero).

## Plan per property

| id | model | proof |
|----|-------|-------|
| C01 | `flatten_tree`, `flatten_forest`, `remove_duplicate_leaves` on array-encoded trees; arbitrary decision oracle `goLeft : feature → threshold → Bool` | inductive well-formed tree; simulation of the walk by induction on remaining index; dedup as leaf-code remapping |
| C02 | as C01 | invariant of the flattening loops; counting of leaf/node references |
| C03 | `remove_duplicate_leaves` | first-occurrence list lemmas |
| C04 | `eml_trees_predict_tree` with fuel and bounds-checked reads | measure: indices strictly increase (children after parents) |
| C05 | `encode_child`, int16 wrap of the C field | exact for encoded < 2^15; counter-example for 32768 (accepted) |
| C06 | threshold truncation | exact characterisation of agreement; counter-example for the full claim |
| C07 | `eml_trees_predict` (leaf_bits=0) | fold invariants for vote counting and arg-max |
| C08 | `eml_trees_predict_proba` over an ordered field | sum of votes = number of trees |
| C09 | inline code generator semantics vs. table interpreter | both equal the forest walk |
| C10 | error paths of `eml_trees.h` and of the binding's `predict` | case analysis; refutation for the Wrapper part |
| C11 | `eml_trees_regress` | mean between min and max |
| C12 | `quantize_probabilities_into_byte` over ℚ | rounding lemmas |
| C13 | `QSORT` macro on an array with index-checked less/swap | partition invariant, well-founded recursion over ranges |
| C14 | explicit stack machine of `QSORT` | invariant: i-th pending range is at least twice what is below |
| C15 | `eml_isqrt` | loop invariant |
| C16 | `eml_distance_euclidean_int16` | from C15 |
| C17 | `eml_neighbors_predict` | from C13 + vote counting |
| C18 | `eml_neighbors_add_item` | refinement to a bounded list over histories |
| C19-C24 | `eml_array.h` on flat memory | index arithmetic; history induction for C24 |
| C25-C27 | CSV writer/reader over character lists | tokenizer inverse; counter-examples for C26, C27 |
| C28-C30 | quantizers over ℚ (ordered floor ring) | truncation lemmas |
| C31-C32 | fixed point | integer division lemmas |
| C33-C35 | `eml_bayes.h` | fold invariants, loop invariant for log2 |
| C36-C38,C40 | `eml_net.h` with arbitrary arithmetic, buffers as lists | simulation; refutation C38 |
| C39 | softmax over ℝ | exp lemmas |
| C41 | `eml_argmax_fixed32` | refutation + exact characterisation |
| C42 | `convert_keras` | induction over layers; refutation |
| C43-C46 | distance/mixture | sums over a field / ℝ |
| C47 | `eml_iir.h` | invariant on the two states |
| C48 | `eml_fft.h` | reindexing + butterfly induction, `Complex` |
| C49 | `sparse_filterbank` | list splitting |
| C50 | `eml_audio_melspec` index logic | refutation + partial |
| C51 | `is_pareto_efficient_simple` | loop invariant |
| C52 | Schrage | arithmetic |
| C53-C54 | `cgen.py` on strings | list-of-char lemmas |
| C55 | `trees.Wrapper.__init__` | case analysis |
| C56-C57 | `eml_test_read_csv`, `common.py` | tokenizer; refutation for long lines |
| C58 | `read_overlapped_windows` | history induction |
| C59 | two-thread transition system | refutation + partial |
| C60 | `eml_vector.h` | list lemmas |
| C61 | `Wrapper.save(format='csv')` | decode ∘ encode; refutation for single-node trees |
| C62 | `evaluate/trees.py` | arithmetic |
| C63 | `motion_preprocessing.h` | partial + refutation |
| C64 | `eml_error_str` table | case analysis; refutation (two texts are swapped) |
| C65 | `Quantizer.fit`/`transform` over ℚ | arithmetic of scale; refutation for unsigned dtypes |
| C66 | argument checks of `eml_bayes.h` | case analysis over all models |
| C67 | fixed-point network vs. ℚ network | refinement with error bound per layer |
| C68 | `convert_sklearn_mlp` | equality of layer functions |
| C69-C70 | `eml_minmax`, `eml_dot_product` | fold invariants; refutation for the `bool` return type |
| C71-C73 | mel scale, spectrogram, filters | analysis over ℝ; sums; refutation (imaginary part dropped) |
| C74 | `find_pareto_front` on data frames as column maps | set equality; refutation (column overwritten) |
| C75 | `struct_declare`/`struct_init` | text reader; refutation (modifiers ignored) |
| C76-C77 | motion feature names, statistics | injectivity of names, sums, refutations |
| C78-C79 | `eml_neighbors_check`, `neighbors.py` converter | arithmetic; reduction to C17; refutations |
| C80-C81 | `eml_bayes_logpdf` fixed point | explicit error bound against the real log density, then arg-max margin |
| C82 | `trees.py` self-check assertions | counting |
| C83 | sklearn averaged probabilities vs. soft/hard vote | error bound of the byte quantisation; refutations |
| C84 | every public function of `eml_net.h` on any structure | case analysis with explicit buffers |
| C85-C86 | fixed-point arrays, network source text | decimal text inverse |
| C87 | `convert()` dispatch | enumeration of class names proved complete |
| C88 | inline tree text | parse (print ast) = ast, then execution by induction over the trees |
| C89 | loadable tree text | structure read from initialisers, then `eml_trees.h` model |
| C90 | loadable network text | same, `eml_net.h` model; buffers sized by the generator |
| C91 | nearest-neighbors text | same, `eml_neighbors.h` model; conversion loop with its undefined cases |
| C92 | mixture text | same, `eml_mixture.h` model; generic forwarding functions (`MiniC/Forward.lean`) |
| C93 | elliptic-envelope text | same, `eml_distance.h` model; the offset is printed with Python's `str(float)` (`Decimal.lean`: shortest digits `m·10^e`, positional or exponent notation), and read back by the C lexer (preprocessing numbers with exponents) |
| C94 | naive Bayes text | same, `eml_bayes.h` model; the macro `EML_Q16_FROMFLOAT` on decimal constants with an arbitrary decimal-to-double function; composed with C33 and C81 |
| C95 | window/filterbank tools | `Tools/Textwrap.lean` models `textwrap.wrap`; `Tools/Text.lean` the two files; lexed and parsed by MiniC (wrapping keeps the words, hence the tokens); composed with C49's `eml_sparse_filterbank` |
| C96 | networks in float arithmetic | `Float/Model.lean`: the standard model of rounding as a specification of C's `float`; error of sums, dot products, dense layers, sigmoid, tanh, softmax; induction over layers; composed with C36 and with C90 (from the generated text); binary32 with round-to-nearest is proved to be an instance (`Float/Binary.lean`, `Float/BinaryNet.lean`) and concrete networks meet the range conditions |
| C97 | `eml_mahalanobis_distance_squared`, `eml_elliptic_envelope_predict` (`Distance/Model.lean`, over any type with 0, +, -, *) and the text of C93, in the standard model of floating point | error calculus `Apx q T a` (q roundings relative to T, plus a absolute) in `Float/Calc.lean`: closed under +, -, *, ordered sums; decision by sign exactness of a correctly rounded subtraction; binary32 instance |
| C98 | `eml_sparse_filterbank` (`Signal/Filterbank.lean`) and the text of C95, in the standard model of floating point | band loop = ordered sum, `Apx.sumLoop_zero`, zeros outside the band; induction over the filters; binary32 instance |
| C99 | `eml_iir_filter` (`Signal/Iir.lean`, generic in +, -, *; `Signal/IirRun.lean`: samples-outside-stages loop = stage after stage over the sequence, any arithmetic) in the standard model of floating point | error satisfies the same recursion driven by local rounding errors; convolution with the impulse response of 1/A(z), whose absolute sum is the gain; strong induction over time; composition over stages; gain from poles by geometric sums |
| C100 | `save` of all six wrappers (`Convert/Save.lean`): name from `os.path`, strategies and formats, generation, then `open('w')` and writing in pieces; file system as a map, every intermediate state kept | case analysis; `splitextRoot` characterised by a declarative `IsStem`; generators refuse bad names by their own models |
| C101 | `Evaluate/Size.lean` models the regular-expression scan, the dictionary and the checks of `evaluate/size.py`; `Props/Size.lean` defines the printed table independently and proves by induction over the rows what the scan finds, hence the reported flash/RAM sizes. |
| C102 | `Signal/Fft.lean` is generic in the arithmetic; `Props/FloatFft.lean` bounds the error of one butterfly in the complex plane and carries it through all levels with the invariant `forward_inv` (relative to the sum of the magnitudes of the inputs a value depends on). Example: binary32, 1024 points. |
| C103 | The ensemble functions of C07, C08, C09 and C11 (already generic in the arithmetic) are instantiated with a rounded arithmetic: `TreeArith` asks for rounded addition and division, exact integers and counting below a bound and comparison by value; binary32 meets it (`treeArith`). Votes: counts are exact and `k/N` keeps counts apart while `2(u+η)N < 1`. Means: the rounding calculus of `Float/Calc`. Predictions: an arg-max of scores known up to δ is within 2δ of the best. |
| C104 | `Bindings/Model`: each binding as a function from arrays (shape and values) to a value or an exception, calling the models of C47, C48, C49, C50/C71-C73. Proved by evaluating the shape checks and using those theorems; uninitialised output arrays are a parameter. Wrong shapes: exact characterisation for iirfilter, counterexamples for the others. |
| C105 | `Log/Model`: `printf` with the directives used, each macro as the text it writes. A small logfmt reader is the specification; the round trip is proved by induction over entries and fields with the splitting lemmas of the library. |
| C106 | `Arduino/Model`: a file system as a list of paths with files or directories, `mkdir`, `listdir`, `glob` with `fnmatch`, `shutil.copy`, and the installation as outcome plus file system afterwards. Frame property for every end of the installation; content property by induction over the copied files, with the pattern `eml_*.h` proved equal to prefix and suffix. |
| C107 | `Mixture/Model` made generic in the arithmetic; error calculus of C97 for the two dot products, their difference, square and sum; `-0.5*(n*log2pi+q)+d` as one operation `comb` with a stated accuracy; logarithm of a sum of exponentials from the softmax proof of C96 (`Float/Softmax`: `lse_error`, `resp_error`); text through C92; binary32 instance. |
| C108 | `Motion/Process`: `optParse` over the argument list; induction on the list against a specification that pairs options with values. |
| C109 | `Motion/Process`: `main` with its CSV source (read buffer and column pointers kept between lines), the string pool of column names, the loop. The CSV source is related to the stream of rows of C58 (`Delivers`), one window to C77 and C63, the output to the CSV writer of C27; the names fit the pool (`program_columns`). Refutations on concrete files by evaluation. |
| C110 | `Trees/TextWrap`, `TextWrapRun`, `Python`: the text of `_build_classifier` is parsed together with the saved file; the wrapper functions are executed (loop invariant for the conversion); adding functions to a program keeps successful calls (`MiniC/Extend`); rows go through the harness with a callback that may be undefined (`Harness/Partial`). Composes C88, C89, C56, C57. |
| C111 | `Harness/Session`: state machine over the files below `tmp/`, the working directory and the objects held; operations convert, predict, predict_proba, chdir. Invariant by induction over histories: each executable path holds the program of the last conversion of its family in that directory. The specification (`program`, `created`, `lastBuilt`) does not mention files. |
| C112 | `Harness/Call` puts the model of the Python harness (rows to CSV, program main, output parsing) around any function of a generated program; `pyPredict` in Props/NeighborsPython prints the C text, parses it and runs it per row. Specification: `Nearest` and `Majority` of C17. |
| C113 | The same composition for Bayes (Props/BayesPython), with the error allowances of C81 as specification. |
| C114 | The same composition for elliptic envelopes (Props/DistancePython), with the rounding-error bound of C97 and the six printed decimals; specification: the quadratic form of the fitted mean and precision matrix. |
| C115 | `Harness/Stateful`: the harness around a call with program state; `Net/Python`: the wrapper of net.py, whose state is the pair of static activation buffers, zero at program start and carried from row to row. Invariant: buffer sizes; the answers are shown not to depend on the contents. Error bounds from C96. |
| C116 | `Mixture/Python`: the program that `build_executable` writes around the generated code (argument count, call, error codes as exit status, printing), `subprocess.check_output`, the parsing of its last line, `numpy.argmax`. Composition of C46 (conversion), C92 (text) and C107 (float error); the component values of any arithmetic are specified by left folds over `Fin n`. |
| C117 | `Mixture/Bayesian`: `get_log_weights` on lists as numpy broadcasts them, `digamma` a parameter. Specification: scikit-learn's `_estimate_log_prob` for Bayesian mixtures. Exact by C45 and C46 with a ring identity; in `float` arithmetic by C116 and the Lipschitz bounds of softmax and log-sum-exp. |
| C118 | `Tools/Gravity`: the header text, its macro and a reader through the MiniC parser. Exact by `round6` and C47; refuted with concrete filters (transfer recurrences, DC gain) and in the motion preprocessor model of C77. The filter design itself (`scipy.signal.iirfilter`) is arbitrary input. |
| C119 | `Motion/Recorder`: the file on the medium, the open stream's unwritten data, `write_header`, `write_samples` and the start of `main`, on top of the reader model of C59. Invariant over all schedules with arbitrary flushes; completeness by a step count (C59_keeps_up) and the CSV round trip C25. USB setup and sensor configuration are not modelled. |
| C120 | `Float/Bits`: the IEEE bit pattern of binary32 numbers both ways, proved inverse; `Trees/Leaf32`: the byte table and the load through a `float` pointer. Composition with C01, C103, C89 and C110. |
| C121 | `Float/Nearest`: rounding to nearest of any precision and tie rule, given only by 'a number of the format, none is nearer' (monotone, exact on numbers, error, uniqueness off ties; an instance exists); `Quant/Float`: the quantizer of C28-C30 and C65 with one rounding per operation. NaN not represented. |
| C122 | No new model: `Props/TreesTrained` composes conversion (C01, C02), quantized leaves (C83), the generated text (C88, C89), the compiled program called from Python (C110) and binary32 (C103) into statements whose only subjects are the trained trees, the matrix and the returned numbers. scikit-learn's own rounding of the rows to float32 is not modelled: `Clear` is about the exact row values. |
| C123 | `Evaluate/Build` models `get_program_size` and `check_build_tools` with the recipes of the two makefiles over an arbitrary toolchain (`World`: installed programs, exit codes, output), yielding outcome and list of events. The command lines are stated independently as argument lists; word splitting is proved by induction, the prefix property by induction over the recipe. Command lines with characters special to make or the shell have arbitrary words. |
| C124 | `Motion/Float` is `motion_preprocessor_run` over any arithmetic; `Motion/FloatRun` proves by induction over frames and windows what it computes from all samples so far; `Motion/FloatError` bounds square root, RMS, length, min/max and quotient in the standard model (perturbation of √, Lipschitz bounds via the Euclidean norm). C99 gives the filter error, C102 the FFT error; `Props/FloatMotion32` instantiates binary32. |
| C125 | `Signal/AudioFloat` is `eml_audio_melspectrogram` over any arithmetic with library functions as parameters; `Signal/AudioError` bounds products, clamped quotients (the clamp is Lipschitz, which keeps the quotient's error independent of its size) and loops in the standard model; `Props/FloatAudio` combines them with C102 and compares with the exact formula of C72; `Props/FloatAudio32` bounds edges, frequencies and bins and instantiates binary32. |
| C126 | No new model: the generated text is parsed and run by `MiniC` (C88, C89), where an access outside of an array has no result. `Props/TreesBuffer` characterises the runs for every buffer length, failing ones included, by induction over the votes and over the loop of a vote. |
| C89, C110 (probability leaves) | `Props/TreesSoftLoad`: C01/C02/C04 (conversion), C89 (text) and the folds of `eml_trees_predict_proba` composed, from trained trees with rows of bytes as leaves to the C functions and to Python; `Props/TreesTrainedLoad` adds binary32 and quantization (C122). |

## Defects found in the modelled code

Each is proved about the model (theorem in brackets); the corresponding full claim is refuted or restricted in the theorem.

* Trees: child references above int16 wrap (C05); thresholds truncated (C06); soft voting with few leaf bits can quantise every probability to 0, predict -1, reported as class 1 (`C83_class_bound_sharp`);
  default hard voting differs from scikit-learn (`C83_hard_vote_differs`); the self-check asserts left leaf references twice and right ones never (C82); csv format loses single-node trees (C61);
  some valid names break the generated code (`C89_names_refuted`).
* Networks: inline generation always raises (`C40_inline_generation_refuted`); two-output `predict_proba` swaps classes (`C38_refuted`); no layers reads `layers[-1]` (`C84_no_layers_refuted`); arg-max of fixed point (C41); a single Dense
  keras layer gives a net that always returns -2 (C42); names that break the code (`C90_names_refuted`).
* Nearest neighbors: int16 lengths in the check refuse large models (`C78_large_refuted`); data and queries are truncated (`C79_truncation_refuted`); longer input overflows the local array (`C79_long_input_refuted`, `C91_wrapper_call`); k ≤ 0 answers -1; the names `int16_t` and `EmlNeighborsModel` pass the name check but break the text (`C91_names_refuted`).
* Mixtures: generated code has six decimals, so precision factors below 5e-7 are written as zero and the input is ignored (`C92_small_precision_refuted`); the name `eml_mixture` gives functions that call themselves (`C92_names_refuted`).
* Elliptic envelopes: same rounding; precision entries below 5e-7 make the distance 0 for every input (`C93_small_precision_refuted`); the generated function drops the decision and returns distance 0, the best inlier, when the length is wrong (`C93_predict`); the name `eml_elliptic_envelope` gives a function that calls itself (`C93_names_refuted`).
* Naive Bayes: the generator does not check the range of Q16; a mean of 40000 gives a text whose model has undefined behaviour (`C94_out_of_range_refuted`); the name `eml_bayes` gives a function that calls itself (`C94_names_refuted`).
* Tools: `--linewrap` below the longest word cuts identifiers in two, `--name` is not checked, `fmax` is cut to an integer (`C95_narrow_refuted`, `C95_names_refuted`, `C95_fmax_refuted`).
* Bayes: class priors are ignored, std below 2^-16 becomes 0, log-density overflows beyond about 181 standard deviations (`C80_domain_sharp`).
* Mixture/convert: `values_length` is never checked (`C45_short_input_reads_past_end`); `convert(EllipticEnvelope)` with the default method raises, any method name is accepted for mixtures, regressor subclasses convert as classifiers (C87); `eml_dot_product` returns `bool` (C70).
* Signal: mel power uses only the real part (C72); odd `n_fft` reads past the end (C50).
* Text and harness: more than 186 features per row always raise (C56), stale previous row on model error (C57), `eml_error_str` swaps two texts (`C64_refuted`), identifier check accepts a trailing newline (C53), `struct_declare` drops modifiers (C75).
* Evaluate/motion: `find_pareto_front` overwrites a column (C74); `hop = 0` or `hop > window` memory faults (C58); torn chunks in the zephyr reader (C59); `start > end` gives a negative copy length (C63); duplicate feature names (C76); FFT magnitude is |Re| (C77); `eml_vector_view` unchecked (C60).

## Axioms

Every theorem listed in `MANIFEST.json` depends on a subset of `propext`, `Classical.choice`, `Quot.sound` (checked with `#print axioms` in `tools/axioms.sh`; the table is in `AXIOMS.md`).
`decide +kernel` in examples and closed refutations is evaluated by the kernel itself and adds no axiom.
