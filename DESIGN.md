# Formal model of riptide: design

Lean 4.33.0 + Mathlib. Source under study: `/repo` (riptide, python + C++ headers), read as text only; nothing of it was built or
run.

## 1. Trusted base

* Lean's kernel. The theorems listed in MANIFEST.json (534 names) depend on the axioms `propext`,
  `Classical.choice`, `Quot.sound` or a subset of these and on nothing else: no `sorry`, no own axioms, no `native_decide`/`bv_decide`,
  no `implemented_by`, no `unsafe`. Closed evaluations use `decide` (with the kernel), `norm_num`, `rfl`. To check one: `#print axioms
  Verif.Props.C01_ffa_is_shifted_stack` after `import Verif`.
* The hand translation from `/repo` to the definitions in `lean/Verif/Model/`. Every definition cites the file and
  lines it models and says where it simplifies. Nothing ties the text of `/repo` to the Lean text mechanically.
* The specification files `lean/Verif/Spec/` (what the words of a property mean). Where a property is stated with a model
  function, it is the function that the property is about.

## 2. Layout

* `Verif/Model/*.lean`  - the code, function by function. Exceptions are values of `Except`/`Option`; out-of-bounds accesses, reads of
  uninitialised memory, out-of-range conversions and empty `max_element` are the error `undefinedBehaviour`.
* `Verif/Spec/*.lean`   - small independent specifications.
* `Verif/Lemmas/*.lean` - helper lemmas, nothing there is a claim.
* `Verif/Props/*.lean`  - the property theorems (names `C01_...`), each with an `example` of a concrete case that meets the
  hypotheses. `..._partial`: what was proved of a property that is false or only partly proved; `..._false`: a witness against it.

| model file | source in /repo/riptide |
|---|---|
| Kernels, FFA | cpp/kernels.hpp, cpp/block.hpp, cpp/transforms.hpp, `ffa1`/`ffa2` of libffa.py (functional level) |
| Memory | the same on a flat memory with unallocated and uninitialised cells |
| Float | single precision index arithmetic of `merge` |
| Snr | cpp/snr.hpp, binding `boxcar_snr` of cpp/python_bindings.cpp |
| Downsample | cpp/downsample.hpp, its binding |
| Periodogram | cpp/periodogram.hpp and its binding, on memory, real arithmetic |
| PeriodogramF | the same and `downsample`, with every double precision operation rounded |
| RunningMedian | cpp/running_median.hpp, its binding, running_medians.py |
| Trials | ffautils.py, `ffafreq`, `ffaprd` of libffa.py |
| TimeSeries | time_series.py, folding.py, search.py (heap of python objects) |
| Aliasing | time_series.py: constructors, `copy`; heap with read-only and type flags, writes by the caller |
| Peaks | clustering.py, peak_detection.py, clustering part of apps/rseek.py |
| Fit | `fit_threshold` of peak_detection.py |
| Harmonics | pipeline/harmonic_testing.py, `fractions.Fraction.limit_denominator` of python 3.11 |
| Dm | pipeline/dmiter.py |
| Prepare | `Pipeline.prepare`, `wmin`, and the galactic coordinates of dmiter.py |
| Ranges | range lookup and validation of pipeline/pipeline.py and config_validation.py |
| Pipeline, Process | pipeline/pipeline.py (clusters, flags, filters, candidates, saving), pipeline/worker_pool.py `process_fname_list` |
| Worker | pipeline/worker_pool.py `process_fname` |
| PipelineRun | pipeline/pipeline.py `process` as a whole, from metadata and loaded files to candidates |
| PipelineConf | pipeline/pipeline.py `process` with the validated configuration and with `htest` for real numbers |
| Nan | time_series.py `normalise`, `deredden`, search.py `ffa_search`, running_medians.py, snr.hpp, kernels.hpp, peak_detection.py `find_peaks` on values that may be infinite or NaN |
| PipelineFiles | pipeline/pipeline.py `process` on files: metadata and time series loaded with the loaders of Presto and Sigproc; metadata that are missing are an error when they are loaded, samples must be finite |
| Products | pipeline/pipeline.py `save_products`, `CandidateWriter`, `process`: the text of the CSV tables and the content of the output directory; the encodings of a candidate are parameters |
| Saving | pipeline/pipeline.py `save_products` where `CandidateWriter` may raise, candidate.py `plot_candidate`, `plot_table`, `plot_dm_curve` as far as they can fail on the data; batches of `multiprocessing.Pool.map` |
| Figures | candidate.py `plot_subints`, `plot_profile`, `plot_table`, `plot_dm_curve`, `plot_candidate`; periodogram.py `Periodogram.plot`: what is given to matplotlib |
| Rseek | apps/rseek.py: options, `run_program` without reading and printing; `fast_running_median` with a float count |
| RseekFiles | apps/rseek.py: `run_program` from the file on the disk to the text that is printed |
| JsonText | serialization.py: `to_json`, `from_json`, `save_json`, `load_json` on characters and bytes; the writer and scanner of python's json module |
| Layout | python_bindings.cpp `assert_c_contiguous` and conversion of arguments; libffa.py, running_medians.py, time_series.py, folding.py, search.py on arrays with strides |
| Yaml | pipeline.py `Pipeline.from_yaml_config`; PyYAML (not in the repository): types and values of plain scalars, sequences and mappings |
| Rffa | pipeline.py `get_parser`, `run_program`: the program `rffa` from files to files (order of opening the log, reading, processing and writing). Not modelled: `--help`, `--version`, texts that cannot be decoded, a directory that cannot be written to, what is logged |
| NormaliseF | time_series.py `normalise` 66-90 in floating point: the `float64` sums of NumPy in any order, the square root `** 0.5` to two roundings, and both type promotions of `(data - m) / norm`. Not modelled: overflow, underflow and NaN (the last is in Nan) |
| DereddenF | running_medians.py 40-83 and time_series.py `deredden` 93-122 in floating point: block means in `float32` with sums in any order, `np.interp` in `float64`, the type of the difference. The compiled running median only compares and copies, it is exact |
| PeaksF | clustering.py, peak_detection.py, the clustering in apps/rseek.py 133-141 and in pipeline.py 187-215 in double precision: rounded frequencies, differences, radius, number of segments, periods, duty cycles; values of the fitted threshold arbitrary |
| FoldF | folding.py, `Candidate.profile` and the array of `Candidate.from_pipeline_output` in floating point: rounded lengths, factors and quotients, scaling with both promotion rules of NumPy, sums over rows in any order |
| HarmonicsF | harmonic_testing.py in double precision: rounded ratio, phase, DM and S/N distances, exact fractions |
| DmF | dmiter.py 12-80 in double precision: constants of dispersion and smearing, radii of coverage, gaps, selection |
| TrialsF | ffautils.py in double precision |
| PipelineF | pipeline.py, worker_pool.py and search.py in floating point |
| CandFile | candidate.py `to_dict` and the arrays in it as bytes (`Spec/FloatBits.lean` says which number a bit pattern stands for) |
| Samples | time_series.py `__init__`, `from_numpy_array`, `from_binary`, `from_npy_file`: samples of any type as bytes, `.npy` files, the conversion to `float32` |
| Nan, Overflow | the search with NaN, infinities, overflow and subnormal numbers (`Spec/Overflow.lean` states the arithmetic); the model is that of C112 |
| Cost | kernels.hpp 9-25, transforms.hpp, periodogram.hpp 117-201 and `benchmark_ffa2` with a counter of additions |
| WorkerNan | worker_pool.py `process_fname` 47-71 on samples that may be NaN or infinite: the search and the peaks of `Nan`, prepared once |
| WorkerConf | worker_pool.py: `process_fname` with the sections of a configuration as keyword arguments; infinite numbers are left out |
| SnrF | downsample.hpp, kernels.hpp, snr.hpp, periodogram.hpp (one trial): the operations on the data with any rounding |
| SearchFloat | downsample.hpp `downsampled_variance`, periodogram.hpp (noise level), python_bindings.cpp `downsample`: the search with single and double precision together |
| Generate | libffa.py: `generate_signal`; time_series.py: `TimeSeries.generate`; the random numbers are a parameter |
| ClusterTable | pipeline/peak_cluster.py |
| Candidate | candidate.py without plots (see Figures) |
| Sigproc, Presto, Metadata | reading/sigproc.py, reading/presto.py, metadata.py, `from_sigproc`, `from_presto_inf` |
| Json, Py, PyVal | serialization.py; python values and exceptions |
| Config | pipeline/config_validation.py |

## 3. Numbers

* Default: data live in an arbitrary commutative ring, ordered field or the reals, i.e. exact arithmetic. The C++ flags include
  `-fassociative-math -ffinite-math-only`, so the compiler may reorder float sums, and NaN/inf are outside the contract of the
  compiled code; exact arithmetic is the meaning that all such reorderings approximate.
* C112 (`Model/Nan.lean`) is about values that are finite, infinite or NaN. Assumed of the compiled code: a sum, product or quotient with a NaN operand is
  NaN (what the processor does; with `-ffinite-math-only` the compiler does not promise it). Comparisons in C++ may have any outcome, rounding may be any
  function including overflow to infinity, numpy may add in any order. Zeros of different sign are not told apart.
* Where rounding decides control flow or memory safety it is modelled. `Model/Float.lean` is IEEE round-to-nearest-even with `p` bits
  as a function on rationals (no overflow, no subnormals), used for C06. `Model/PeriodogramF.lean` is the whole search with any rounding
  of `double` that is monotone, exact on integers up to 2^53 and accurate to one unit, any `pow` accurate to two units and any `log` accurate to
  2^-40 (`Spec/Double.lean`); IEEE double is proved to be an instance. C07 is for every addition with relative error u.
* In C75/C76 expressions are evaluated in source order and the copies of an expression in `periodogram_length` and `periodogram` round
  alike. setup.py 6-20 chooses flags with this in mind, but `-fassociative-math` gives no such guarantee.
* C85/C86 (`Model/SnrF.lean`) are for any rounding with relative error at most u (float) and v (double), in source order, whether
  or not products are fused with the sum they are part of; no overflow or underflow, positions of windows and noise variance exact.
  C113 to C115 (`Model/SearchFloat.lean`) have them in double precision; they need, beyond `Sane`, an error bound for negative numbers and that there is no double
  between 1 and 1 + 2^-52 (`Spec/SearchFloat.lean`), and IEEE double is proved to have both.
* C119 to C129 (`Model/NormaliseF.lean`, `Model/DereddenF.lean`, `Model/PeaksF.lean`, `Model/FoldF.lean`, `Model/HarmonicsF.lean`, `Model/DmF.lean`, `Model/TrialsF.lean`, `Model/PipelineF.lean`) are for any rounding in the same sense (`Sane` for C121 to C123, C127 and C129, `HSane` for C125, C126 and C128; the witnesses of C123 and C127 are for round-to-nearest); a sum of NumPy is any tree of additions, since
  NumPy promises no order.
* C112 and C132 are for values that may be infinite or NaN (`FVal`). C132 is for IEEE 754 with overflow and subnormal numbers (`Ieee` in `Spec/Overflow.lean`): results below the threshold of overflow are rounded to the nearest
  number of the format. `ieeeArith` is proved to be an instance.
* C88, C89 and parts of C115 are statements on probabilities. The noise is a family of random variables on any probability space (Mathlib's
  `Measure`, `iIndepFun`, `HasSubgaussianMGF`); the code itself is deterministic and is applied to each realisation.
* The stages of the pipeline after the search (clusters, harmonics, filters, candidates) are over any ordered field, with any harmonic
  test; `htest` itself is on rationals, candidates are real.
* `size_t` is `Nat`; the one place where wrap-around could happen in legal calls (`s - (h + t)` in `merge`) is modelled with the
  wrap-around (`% 2^64`), as is the conversion of the number of bins to `uint32_t`.
* Arrays are lists or functions; C memory is a function from addresses to cells.

## 4. Properties

119 proved, 25 partial. Every partial one is false as stated: there is a witness theorem and a theorem for what holds instead (section 5).

| id | property | what is modelled | how it is proved | status |
|----|----------|------------------|------------------|--------|
| C01 | FFA output row s is a shifted stack of all input rows | `merge`, `transform` as recursion on the rows, any index rule | strong induction on m; the shift table is specified by the stacking equation | proved |
| C02 | FFA shifts follow the ideal linear drift within a logarithmic number of bins | same, exact round-half-up rule | induction, e(m) <= e(ceil(m/2)) + 1/2 | proved |
| C03 | FFA conserves flux and row 0 is the plain fold | same | from C01 | proved |
| C04 | FFA is linear and commutes with phase rotation | same | from C01 | proved |
| C05 | FFA with shared scratch memory never reads stale data | memory-level `transform` (input/temp/out blocks) | refinement to the functional transform, frame lemma | proved |
| C06 | Single-precision shift arithmetic never leaves the block | float32 index arithmetic of `merge`, with and without FMA | error analysis of three roundings; kernel evaluation of the witness | proved |
| C07 | FFA rounding error is bounded by the recursion depth | transform over an arbitrary addition with relative error u | induction on depth | proved |
| C08 | Rotation kernels match numpy.roll | kernels over lists and memory | index arithmetic | proved |
| C09 | Circular prefix sum | `circular_prefix_sum` with wraps | induction over wraps | proved |
| C10 | The circular_prefix_sum binding allocates enough output | allocation of the binding against its writes | witness; safe iff nsum <= size | partial |
| C11 | Boxcar S/N is the optimum matched filter over all pulse phases | `snr1` over the reals | prefix-sum differences are boxcar sums; spec is the zero-mean unit-norm vector | proved |
| C12 | Boxcar S/N invariances | same | from C11 | proved |
| C13 | boxcar_snr validates its arguments and treats rows independently | binding `boxcar_snr`, checks | case analysis | proved |
| C14 | Downsampling integrates the data over consecutive windows of length f | `downsample` with real f | overlap of unit intervals | proved |
| C15 | Downsampling conserves what it covers | same | telescoping sums | proved |
| C16 | Noise variance after downsampling is what the search divides by | `downsampled_variance` | witness f = 3 | partial |
| C17 | The periodogram fills its output arrays exactly | `periodogram_length`, `periodogram`, binding, on memory | loop invariants; closed form of the trial list | proved |
| C18 | Trial periods are strictly increasing and inside the requested range | same | monotone inside a fold, fold to fold, stage to stage | proved |
| C19 | Trial period grid has no holes | same | algebra of the trial period formula | proved |
| C20 | Periodogram scratch buffers are large enough | same | monotone floor division | proved |
| C21 | Searching up to a very long period stops gracefully | same | witness; exact condition of failure | partial |
| C22 | Each trial period label matches the drift that was folded | drift of a periodic signal | algebra + C02 | proved |
| C23 | ffafreq and ffaprd | `ffafreq`, `ffaprd` | algebra | proved |
| C24 | Width trials | `generate_width_trials` | termination measure, invariants | proved |
| C25 | Running median is exact with edge padding | ring buffer + `running_median` | ring holds the last w values as a multiset; spec by counting | proved |
| C26 | Quickselect returns the n-th order statistic | `partition`, `nth_element` | loop invariant, permutation | proved |
| C27 | De-reddening succeeds whenever the window fits | `fast_running_median` control flow | witness; exact condition of failure | partial |
| C28 | The approximate running median stays within the range of the data | scrunch, interpolation | convexity | proved |
| C29 | cluster1d computes the friends-of-friends partition | `cluster1d` for any sorting permutation | chain relation | proved |
| C30 | Reported peaks are genuine | `find_peaks` with any fitted threshold | via C29 | proved |
| C31 | No significant point is lost | same | via C29 | proved |
| C32 | segment_stats never fails on a legal periodogram | `segment_stats` sizes | witness; condition of failure | partial |
| C33 | DM selection covers the requested range | `select_dms` | loop invariants | proved |
| C34 | DM selection is minimal | same | exchange argument | proved |
| C35 | File iteration visits each selected file once | `iterate_filenames` | list induction | proved |
| C36 | Every candidate period is assigned the right search range | `get_search_range`, `validate_ranges` | interval logic | proved |
| C37 | Validated ranges can always be folded | `validate_range`, `fold` checks | witness | partial |
| C38 | fold returns the advertised shape and loses no flux | `fold` | via C14/C15 | proved |
| C39 | Folding and non-inplace operations do not modify the input | heap of numpy arrays with sharing | frame lemma | proved |
| C40 | tobs metadata always equals the length of the data | TimeSeries as state machine | witness; invariant over histories | partial |
| C41 | Normalisation gives zero mean and unit variance | `normalise` | algebra over the reals | proved |
| C42 | Harmonic test decision | `hdiag`, `htest` | case analysis | proved |
| C43 | Closest fraction is the best rational approximation | `Fraction.limit_denominator` | Farey determinant invariant | proved |
| C44 | Harmonic flagging is sound and complete | `flag_harmonics` double loop | invariant over the order of `combinations` | proved |
| C45 | Candidate filters keep exactly what they promise | candidate filters | list lemmas, stable sort | proved |
| C46 | One failing candidate does not lose the others | `build_candidates`, arbitrary failures | permutation; file name format is injective | proved |
| C47 | Search result does not depend on scheduling | `Pool.map` with any completion order | result array indexed by task | proved |
| C48 | A crash while saving leaves a consistent prefix | `save_products` as create/complete events of files | every prefix of every interleaving | proved |
| C49 | JSON serialization round trip | JSON tree encoder, object hook, base64 | structural induction | proved |
| C50 | SIGPROC header parser | byte-level header parser | round trip with an independent writer | proved |
| C51 | SIGPROC sample count and dtype | same, sample count | case analysis | proved |
| C52 | SIGPROC coordinates | coordinates from the header | arithmetic | proved |
| C53 | PRESTO .inf parser | `inf2dict` over characters | round trip with an independent writer | proved |
| C54 | Metadata is total on reserved keys and defensive | Metadata validation | case analysis | proved |
| C55 | Pipeline configuration documented as valid is accepted | configuration schema | exact set of accepted trees; witness | partial |
| C56 | rseek prints one peak per frequency cluster | rseek clustering | via C29 | proved |
| C57 | fpmin caps the maximum searched period | argument passing of `ffa_search` | witness | partial |
| C58 | Every periodogram S/N value is the matched-filter S/N of the labelled fold | `periodogram` on memory, all values | C05 + C11 + C14 + C17 | proved |
| C59 | A full search never feeds an invalid boxcar width to the S/N code | widths passed to the search | C24 + C18 | proved |
| C60 | DM iteration honours bounds, cap and the band of the files | DM iterator set-up | case analysis | proved |
| C61 | ffa_search does not depend on gain and baseline of the data | `ffa_search` | C41, C66, C12 | proved |
| C62 | ffa_search returns the series it searched, with consistent metadata | same, heap | frame lemma | proved |
| C63 | The harmonic fraction respects denom_max | `htest` | witness | partial |
| C64 | Pipeline clusters are the friends-of-friends groups of the peak frequencies | clusters of the pipeline | via C29 | proved |
| C65 | The running median keeps monotone data and linear trends | running medians of monotone data | counting | proved |
| C66 | Dereddening subtracts the running median of the nearest whole window | `deredden` | C25, C28 | proved |
| C67 | The cluster table has one row per cluster, ranked, with consistent harmonic relations | cluster table | list lemmas | proved |
| C68 | Every detected peak is accounted for in the end products | `Pipeline.process` | composition of the stages | proved |
| C69 | A Pipeline object can be reused: the candidates of a run are those of its own input | `Pipeline.process` twice | witness | partial |
| C70 | A cluster becomes a candidate whenever its period can be folded | `build_candidates`, `Candidate` | C37, C38 | proved |
| C71 | Every candidate that is built can be plotted | `plot_subints` first statement | witness | partial |
| C72 | The DM curve of a candidate is the envelope of its peaks | DM curve of a candidate | list lemmas | proved |
| C73 | Preparing a file once for all search ranges does not change its peaks | `process_fname` | C61, C62 | proved |
| C74 | Peaks belong to the range that found them | `process_fname` + `get_search_range` | C18, C30, C36 | proved |
| C75 | Memory safety of the compiled search whatever the rounding | `periodogram_length`, `periodogram`, `downsample`, binding with every double operation rounded | loop invariants on memory for any monotone accurate rounding; IEEE instance | proved |
| C76 | Trial periods increase also in double precision | same | error analysis; kernel evaluation of the witness | partial |
| C77 | Range of the S/N of a search | the compiled search on memory, ffa_search | zero mean template: average over phases is 0; Cauchy-Schwarz through template, stack and downsampling windows; variance formula >= f/2 | proved |
| C78 | Coherent gain of folding | the compiled search on memory, ffa_search, normalise | membership of the trial (0, b, 0) in the plan, shift table row 0, scaling of the matched filter; the normalised train is a multiple of the template | proved |
| C79 | Defaults of the rseek options can be given explicitly | rseek options (argparse conversion), running median with an int or float count | case analysis; concrete run of 4800 samples | partial |
| C80 | Result of rseek | rseek run_program from the loaded series to the rows of the table | C30, C31 and C56 joined; chains of significant points are lifted from one width to all widths | proved |
| C81 | Frequency resolution, and peak detection on search output | the compiled search, find_peaks, rseek | bound on the step of every trial from the number of rows; no holes (C19) gives the gaps; telescoping sum against the number of segments | proved |
| C82 | Generated test signals have the documented shape and amplitude | generate_signal with the drawn noise as a parameter | cosine is strictly decreasing on half a turn; normalisation by the sum of squares; expectation and variance of a sum (Mathlib); Cauchy-Schwarz | proved |
| C83 | TimeSeries.generate, and the S/N of a generated signal in a search | TimeSeries.generate on the heap of C39, then ffa_search | evaluation of the metadata; C77, C78 and C82 joined | proved |
| C84 | A file is searched successfully under every validated configuration that fits the data | process_fname with the sections dereddening and ranges of a validated configuration | C55 gives the types, from which the arguments follow; C27, C81 and the loop over ranges of C73 give success; evaluation for the failures | partial |
| C85 | Rounding error of the boxcar S/N | snr1, circular_prefix_sum and diff_max with every operation rounded | calculus of relative errors (`NearR` for positive quantities, `Close` for sums), counted operation by operation | proved |
| C86 | Rounding error of the S/N of a search | downsample, transform and snr1 of one trial with every operation rounded | the same calculus, C07 for the transform, C58 for the exact values; overlaps of windows add up to at most one | proved |
| C87 | A small change of the data changes the S/N of a search little | one search of each of two series | the output of a template is linear in the data, and by C77's energy argument its coefficients have square sum at most f / variance <= 2; maximum over phases | proved |
| C88 | S/N values have the tails of unit noise, false alarms | search of data plus random samples | the coefficients of C87, Mathlib's sub-Gaussian tail bound, union over phases, widths and trials | proved |
| C89 | Detection of a pulse train in noise | search of a pulse train plus random samples | C78 for the trial, the exact S/N of a rectangular pulse, C88 | proved |
| C90 | The profile of a candidate is normalised | from_pipeline_output and Candidate.profile on data plus random samples | C70 gives the profile as a linear function of the samples; squared weights of the overlaps; Mathlib's variance of independent sums | partial |
| C91 | The unit of time does not matter | ffa_search and find_peaks on two series with the same data and different sampling times | simulation of the whole search (memory state with scaled periods); uniqueness of least squares | proved |
| C92 | The dynamic threshold is relative to the S/N background | fit_threshold as any least-squares polynomial in log f, find_peaks | parallelogram law and Lagrange uniqueness; percentiles, sort and argmax commute with increasing affine maps | proved |
| C93 | Skipping DM trials loses no signals | the selection of DMs as in C33 | coverage radii grow with DM, but not faster than DM; a signal between two selected trials is covered by them if they touch, otherwise the trial that sees it is on one side and the selected neighbour on that side sees it as well | proved |
| C94 | Preparation accepts exactly the observations that can be searched | `Pipeline.prepare`, `wmin`, `get_galactic_coordnates`, the cap, `tsamp_max`, and the entries of the configuration they take | each step of `prepare` is characterised by an equivalence; the sampling condition is then passed to C84 | proved |
| C95 | Pulses of any period are detected | the whole compiled search as in C58 | the trial of C19 folds all samples of the pulses into a window of the width of the boxcar (drift within a step, stepwise shifts of C02, downsampling); the boxcar at this window collects the total of the pulses; noise by C88 | proved |
| C96 | Dereddening is blind to narrow pulses | running medians and dereddening as in C25 to C27 and C66 | an order statistic is inside an interval if fewer elements than its rank are outside; blocks touched by pulses are counted by pulse and by position | proved |
| C97 | From samples to candidates: a strong narrow pulsar is reported | rseek as in C80, the pipeline worker as in C73 | C96 for the dereddening, C87 for what is left of the baseline, C95 for the pulses, C31 and C80 for the peaks | proved |
| C98 | In-place operations have the effect of the copying ones | in-place and copying calls on a heap with read-only flags | both calls are written with the same function of data and sampling time; what each does to the heap is computed | partial |
| C99 | A TimeSeries made with copy=True is independent of the array it was made from | constructors, copy, methods, fold and writes by the caller on the heap | "no other series holds the array" is an invariant of every step | proved |
| C100 | The pipeline loses no candidate: it fails only while preparing or searching | `Pipeline.process` from the files to the candidates: prepare, search with `process_fname`, clusters, flags, filters, candidates folded from the file of their DM | periods of peaks are in their range, fit into the data and are resolved by the bins, so that C70 never raises; C68 for the stages | proved |
| C101 | A peak, and a pulsar with narrow pulses, found in a file becomes a candidate | same | C68 for the peaks, C97 for the pulsar; kernel-checked run on 1000 samples | proved |
| C102 | A validated configuration determines a whole run, including the harmonic flags | `Pipeline` with its configuration and `htest` on real numbers, the conversion to a fraction being any function with two properties | C94 and C84 for the entries, C42 again for real numbers, C68 for the stages; kernel-checked run with a whole configuration | proved |
| C103 | From the files on the disk to the candidates | `DMIterator` and `process_fname` with the loaders of C51, C53 and C54 on an abstract disk | entries of the metadata followed through both loaders, then C102; kernel-checked run from the bytes of a .inf and a .dat file | proved |
| C104 | The tables and files a run leaves in the output directory | `save_products` and `CandidateWriter` on an abstract directory; the text of the tables with nine decimals | digits of rounded numbers read back, splitting at line feeds and commas, names of files shown different, then C67, C68 and C103 | proved |
| C105 | A candidate that cannot be plotted does not prevent the others from being saved | `save_products` with a plot that may raise, `plot_candidate`, and the batches of `Pool.map` | induction over the batches, names of files different as in C104, entries of the metadata followed from the headers | partial |
| C106 | rseek prints every significant signal of a file, to the stated precision | `run_program` of rseek with the loaders of C103; the text of the table, with blanks as a parameter | C103 for the loaded series, then C80, C81 and C97; digits read back as in C104, words of a line by induction over its cells; kernel-checked run from the bytes of the files to a printed line | proved |
| C107 | A pulsar at any DM between the trials of the files becomes a candidate | `Pipeline.process` and `save_products` on files, as for C103 and C104 | C94 for the selected DM, C103 for the loaded series, C101 from its samples to a candidate, C104 for the table; nearest trials above and below for the covered range; kernel-checked run for a pulsar at DM 11 in a file at DM 10 | proved |
| C108 | Saved text files round trip on every system, and cut files never load | the writer of json/encoder.py and the scanner of `_json.c` on characters, encodings and ends of lines of text files | grammar as an inductive relation; scanner complete by induction on derivations, sound by induction on the number of calls, a bound of twice the length shown to suffice; writer in the grammar by recursion on the document; then C49 | proved |
| C109 | Results depend on the samples, not on how the array is laid out in memory | arrays as memory with strides and a type, conversion by pybind11 and by `astype` (order 'K'), the flag C_CONTIGUOUS, the bindings and their python callers | cells read by C++ are the elements if the flag is set; layout of a converted array by cases; outcomes of the python functions as functions of the elements; agreement with the model of the other properties for contiguous arrays | partial |
| C110 | A number written in a configuration file is used with that value | `from_yaml_config`: regular expressions and constructors of PyYAML for plain scalars, trees of nodes, the schemas | matcher by derivatives decides the language; decimal texts against each alternative of the expressions; schema at a path of the tree, for the 32 numeric entries | partial |
| C111 | A configuration file that cannot be used is reported as InvalidPipelineConfig | `from_yaml_config` with `json.dumps` in the log message | mutual induction on nodes: objects that `json.dumps` refuses are those with a date; then C55 | partial |
| C112 | A sample that is not a finite number blanks the search, without an exception | `ffa_search`, `normalise`, `deredden`, `running_median`, the compiled search and `find_peaks` on values that are finite, infinite or NaN | NaN is absorbing in sums (any order), in the transform (induction on the recursion) and in the S/N; the variance of data with an infinite sample is NaN; the windows of `downsample` in double precision leave no sample out; quickselect with an arbitrary comparison | proved |
| C113 | Accuracy of the compiled search, with double and single precision together | the compiled search and `downsample` with window bounds, factors and noise variance in double precision and samples in single precision | a shift of the ends of a window by a rounding changes the integral by at most the samples that touch it; each sample touches at most three windows; then the error calculus of C86 along folding and S/N | proved |
| C114 | The trial periods of the compiled search have no holes, in double precision | the plan of the search (factors, numbers of samples, ceilings, shifts) in double precision | each stage begins, to 2^-49, where the geometric progression puts it, so that the intervals of stages, of numbers of bins and of shifts overlap up to a rounding; a period is then put in the first interval that contains it | proved |
| C115 | Pulses of any period are found by the compiled search, in single and double precision and in noise | the compiled search in double and single precision, applied to periodic pulses and to noise | the trial of C114, the concentration of the folded pulses in a window as in C95 with tolerances for the plan, the error bound of C113, and tail bounds for the noise as in C88 | proved |
| C116 | The figures show the numbers of the candidate and of the periodogram | the panels of `Candidate.plot` and `Periodogram.plot`: image with extent, bars, points, limits and texts | `valueAt` divides the extent in equal strips, independently of how the image is built; floor arithmetic and the printing lemmas of C106 | proved |
| C117 | The profile panel shows the profile minus its median and shades what is shown twice | `plot_profile` | the median as the middle of a sorted permutation, which is unique and moves with the data; witness [0, 1] | partial |
| C118 | rffa reads and writes the files that it should, and a log file changes nothing else | `get_parser`, `run_program`, `from_yaml_config` and `save_products` on the files of a machine, as a relation between what is there before and after; the log has any text at each stage | congruence of every stage in the files it reads; writes are followed by path; witness: the run of C104 with `-f c.yaml` | partial |
| C119 | Normalising and searching raw samples in floating point gives the S/N of the exactly normalised samples | `normalise` with the sums of NumPy as any tree of double precision additions, for both type promotions; then the compiled search as in C113 | `Close`/`NearR` along the tree; the variance about the computed mean; the filter output is linear and nearly zero for constant data (C115), Cauchy-Schwarz for the relative errors | proved |
| C120 | Searching raw samples with the default options in floating point gives the S/N of the exactly dereddened and normalised samples | `scrunch` with sums in single precision in any order, `np.interp` in double precision with or without fused products, the difference as for each type promotion; then `normalise` as in C119 and the search as in C113 | medians are 1-Lipschitz in the largest difference of samples; `NearR` along the sums; the directions of two vectors that differ little (Cauchy-Schwarz), C87 for the change of filter output | proved |
| C121 | Peak detection in double precision loses no significant point and reports pulses of any period | `cluster1d`, `find_peaks` and the table of `rseek` with every operation on frequencies, periods and duty cycles rounded, thresholds arbitrary | since rounding is monotone, comparing rounded distances with a rounded radius is an exact comparison with another radius on the finitely many distances that occur: so the result is that of exact clustering, C29; then C120 | proved |
| C122 | The clusters of the pipeline are right although rounding can disturb the order of the frequencies | `cluster_peaks` with rounded differences on peaks sorted by rounded period | a list that decreases up to delta: elements on both sides of a break are at most delta out of order; witness of disorder: 2 - 2^-51 and 2 - 2^-52 | proved |
| C123 | Folding in floating point accepts the same calls and returns the same shape as in exact arithmetic | `fold`, `downsample_vertical` and `from_pipeline_output` with rounded lengths, factors and quotients; the compiled `downsample` of C113 | bounds of the quotients by (1 + 2^-53)^3; floors of monotone roundings at integers; the witnesses are computed in the kernel with round-to-nearest | partial |
| C124 | Folded data and candidate profiles are accurate in floating point | the same, samples in single precision, sums over rows in any order | composition of relative error bounds: C113 for `downsample` applied to data that are themselves approximate, then scaling and summation trees | proved |
| C125 | The harmonic test in double precision decides as in exact arithmetic, up to rounding at the thresholds | `hdiag` and `htest` with every operation rounded but for those on a `Fraction` | the closest fraction to a rounded number is nearly as close to the number as any; errors relative to the exact distance plus errors relative to what cancels, operation by operation | proved |
| C126 | The DM trials selected in double precision cover the range and are as few as possible, up to rounding | `select_dms` with every operation rounded | the cancellation in the two differences of inverse squares is bounded by k; a rounded gap has the sign of the gap before its last rounding; then as for C33 and C34 with these signs | proved |
| C127 | The width trials in double precision are the documented ones | `generate_width_trials` with rounded products | integers are not rounded and rounding is monotone, so a rounded number cannot cross an integer, only reach it | partial |
| C128 | The pipeline in floating point loses no peak and finds a pulsar | a whole run: `Pipeline.process`, `WorkerPool.process_fname`, `ffa_search`, `find_peaks` and the candidates with every operation rounded | the stages as for C100 with the clusters of C122; a peak of a file has a period in a range up to rounding, so its candidate is made (C123); C120, C121 and C127 give the peak of the pulsar | proved |
| C129 | find_peaks accepts every periodogram that the search makes | `segment_stats` in double precision on the output of the search | the trials have no hole (C114), so intervals of one step around them cover the range of frequencies: the Lebesgue measure bounds their number from below | proved |
| C130 | Candidate files hold the candidates of the run | the bits of floats, the arrays and dictionaries of a `Candidate`, and its file in a run of `rffa` | the exponent and the significand of a number give its bits, and the bits the number; C49 and C108 for the objects and the text; sub-integrations are rectangular by construction in `fold`; every peak of a run is followed from `find_peaks` to the candidate; then C104, C105 and C118 | proved |
| C131 | The samples of a time series are the nearest single precision numbers | `np.fromfile`, `np.save`, `np.load` and the conversion to `float32`, on bytes | the conversion is proved to give the nearest number of the format, ties to even, and this to determine it; bits and numbers as in C130; the loaders of C51 and C53 read the same bytes | proved |
| C132 | Searches of finite data do not overflow | the search on IEEE 754 numbers with overflow and subnormal numbers (`Model/Nan.lean`, `Spec/Overflow.lean`) | rounding to nearest keeps a result between two numbers of the format that bound the exact one; bounds by multiples of powers of two for every sum; the mean of numbers that are not all equal has a distance from one of them, so the variance is not zero; the noise level is at least the square root of the number of periods divided by three | proved |
| C133 | The work of a search does not grow with the longest period | the memory model of C05 and C17 with a counter of additions (`Model/Cost.lean`) | the counter does not change the result; induction on the rows; the factors of the stages grow geometrically, so the lengths of the downsampled series have a finite sum | proved |
| C134 | A bad file does not spoil a run of the pipeline | the worker on values that may be NaN or infinite (`Model/WorkerNan.lean`), the stages of `Model/PipelineF.lean` | prepared data with a bad sample are NaN everywhere, so no S/N value exceeds a threshold; files without peaks drop out of the list of peaks, on which alone the later stages depend | proved |
| C135 | The order in which the input files are given does not matter | `DMIterator`, `Pipeline.process` and `rffa` as for C102, C103 and C118 | minimum, maximum, median, sorted lists and "all equal" do not depend on the order; a dictionary with distinct keys has the same value for every key | proved |
| C136 | The S/N of a trial period does not depend on the other trials of the search | the search on memory of C17, `ffa_search` | a trial of the longer search is one of the shorter iff its period is below period_max; both lists are sorted; the prefix sums do not depend on how far they are continued | proved |
| C137 | Files that are not selected do not matter | `select_dms`, `DMIterator`, `Pipeline.process` as for C102 and C103 | the selection is determined by what is next to be covered, which stays the case in a smaller set that contains the selected trials; only DMs of peaks, hence of searched files, are loaded again | proved |
| C138 | A run of rffa is determined by its input files, and can be repeated or completed | `rffa` on the files of the machine as for C118, the pool of C47 | the state after the search does not depend on the schedule (C47); the products have different names, so that writing them in any order, once or twice, gives the same files | proved |
| C139 | The number of processes does not matter | `rffa` as for C118, the configuration schema of C55, the pool of C47, `pool.map` of C105 | the configuration stays valid and only the number changes (induction on the items of the dictionary); the search by C47; when no writer fails, the batches of any size write the files of all candidates | proved |
| C140 | The order of the entries of the configuration does not matter | the configuration schema of C55, the YAML nodes of C110, `rffa` as for C118 | every schema maps objects with the same entries to objects with the same entries (by composition of schemas; dictionaries by their keys); what is read from the configuration is read by key | proved |
| C141 | Names of search ranges, and entries given with their default value, do not matter | the configuration schema of C55, the arguments of C84 and C102, `rffa` as for C118 | each change keeps a valid range valid, in both directions, and the arguments read from it the same, by cases on the entry; then as for C139 | proved |
| C142 | The candidate filters only select candidates | the stages of `Pipeline.process` of C68, the configuration schema of C55, `Pipeline` on files as for C103 | the stages before the filters do not read them; what the filters keep and what is built from it is described by membership (C45, C46), so that the lists of the two runs can be compared | proved |
| C143 | Switching the plots of candidates off changes nothing else | the configuration schema of C55, saving as for C105, `rffa` as for C118 | nothing but `save_products` reads the entry; what the writers write with plots is, up to the order, what they write without and the plots | proved |
| C144 | A larger clustering radius merges clusters and gives no new peaks | `cluster1d`, `find_peaks` and the table of `rseek` as for C29 to C31 and C80, `cluster_peaks` as for C64 | the breaks for the larger radius are breaks for the smaller one, so that the clusters are cut further (`runs_refine`); the first maximum of joined lists is the first maximum of one of them | proved |

## 5. Properties that are false, and what holds

| id | witness | what holds |
|----|---------|------------|
| C10 | binding `circular_prefix_sum` allocates `size` elements and writes `nsum` | safe iff nsum <= size |
| C16 | factor 3: the variance formula gives (k-1)^2+1 instead of k | right for factors 1 and 2 and for fractional parts as described |
| C21 | period_max much longer than the data: ValueError from the downsampling code instead of an empty result | exact condition; none if period_max <= size * tsamp * bins_min |
| C27 | even windows shorter than 2 * min_points, windows close to the length of the data | exact condition of failure |
| C32 | equal first and last frequency: ZeroDivisionError; fewer trials than segments: empty segment | condition of success |
| C37 | period_min = candidates.bins * tsamp_max: accepted, a period equal to it cannot be folded (the first trial period is exactly period_min, so this is reachable) | true with strict inequality |
| C40 | `downsample(inplace=True)` leaves `tobs` | true for all histories without it |
| C55 | blank `find_peaks`, `subints: null` are documented and rejected; `clrad: null` is accepted and fails later | exact set of accepted configurations |
| C57 | `fpmin` is never used | the result does not depend on it |
| C63 | 1 Hz against 150 Hz: fraction 1/150 with denom_max 100 | bound on the numerator / denominator by direction |
| C69 | `build_candidates` appends to `self.candidates`: a second run keeps the candidates of the first | exact content after each run |
| C71 | one sub-integration: 1-D array, `plot_subints` raises ValueError | true for two and more |
| C76 | 48 samples, tsamp 0.9, periods 5.4 to 6.975, 6 to 7 bins: 6.300000000000001 is followed by 6.3 | increasing and in range up to one part in 2^48 |
| C79 | `rseek --rmed_minpts 101` becomes the float 101.0: TypeError in the compiled running median (20 s of data, other options default) | true for all other options; for rmed_minpts if the window is shorter than 2 rmed_minpts samples |
| C84 | `rmed_minpts: 101.0` and `rmed_minpts: 100` pass the validation; the first is a TypeError for windows of at least 202 samples, the second a ValueError for every file | true for odd integers, if no range has `clrad: null` |
| C90 | four bins in a period of six samples: variance 5/6; a series that is no whole number of periods long: nonzero mean | variance between 1 - 1/(2 f) and 1, exactly 1 for an integer number f of samples per bin; mean zero for whole numbers of periods |
| C98 | `load_json` gives a series whose array is read-only (`np.frombuffer`): `deredden(inplace=True)` raises ValueError, `deredden()` works | true for arrays that may be written to; only `deredden` in place depends on it |
| C105 | five candidates, one process, the first cannot be plotted: batches of two, and the second candidate is not saved | JSON file r is written iff all before it in its batch can be plotted; true for at most four candidates per process |
| C109 | `downsample(x[::2], 2.0)` for a float32 array `x`: ValueError, while a copy of the same elements is downsampled; `boxcar_snr(X.T, widths)`: ValueError | exactly which layouts are refused; otherwise the result is that of the elements; running medians, `normalise`, `deredden`, `copy=True` never depend on the layout |
| C110 | `bins_min: 0240` is accepted and means 160; `radius: 1e-1` is refused | every number without zeros in front is used with its value; exactly which notations each entry takes |
| C111 | a search range with `name: 2020-01-01`: TypeError | true for files without dates; every file with a date raises TypeError |
| C117 | profile [0, 1]: the bars are 0, 1, 0 (the median of 0, 1, 0 is subtracted, not that of the profile); shading begins at 2, the repeated bin at 3/2 | the bars are the profile minus a number between its extremes and have median zero; all that is shaded is shown for the second time |
| C118 | `rffa -c c.yaml -f c.yaml a.inf`: the log file is opened with mode `w` before the configuration is read, so the run ends with InvalidPipelineConfig and the configuration is gone; the same happens to an input file | all log files that are none of the files that are read and none of the products |
| C123 | 90 samples of 1 s, period 10 s, 5 bins, `subints=7`: an array of 6 rows, which does not depend on the last samples; 35 samples, period 7 s, 3 bins, `subints=5`: ValueError; 9 samples, period 9 s, 7 bins: ZeroDivisionError; a candidate with 36 samples of 1 ms, period 7.2 ms, 7 bins, 5 sub-integrations: ValueError | success and shape with a margin of 2^-50; `s` rows whenever m / s is not rounded up, in particular for powers of two |
| C127 | `ducy_max = 0.29`, 100 bins, `wtsp = 1`: the trial of 29 bins is missing, since the float nearest to 0.29 times 100 is rounded to 29 - 2^-48 | equality if no product of the floats is rounded up to an integer (C127_equal_partial); recurrence, order and validity in general |

## 6. Other findings

* The docstring of `htest` gives the expected S/N of a harmonic as F.snr * sqrt(pq), the code divides (C42 follows the code).
* With no peaks `self.clusters` keeps its previous value (C69).
* A failure to load a time series in `build_candidates` is outside of the `try` block and loses all candidates (`C46_load_failure`).
* `process_fname` formats the DM of a log message: DM `None` raises TypeError (`C73_dm_none`).
* C34 (minimal DM selection) needs distinct DMs, C36 needs period_min < period_max, which only the compiled search checks.
* In-place `deredden` modifies an array shared with other objects (`C39_inplace_deredden_is_shared`).
* An empty list of widths is undefined behaviour in `snr1` (`C13_empty_widths_undefined`); period_max of 2^64 samples and more is undefined
  behaviour in `periodogram` (`C75_needs_bound`).
* `Metadata` accepts keys that are not strings; a SIGPROC header with negative nchans and tsamp is accepted; the data file name of a
  PRESTO `.inf` is found by `rsplit` on the whole path.
* JSON: `Metadata` come back as `dict`, frames with mixed types change, a key `__type__` and arrays of objects fail on load.
* Configuration: `ranges: []` is accepted, `rmed_minpts` may be even, bool counts as int, inf is accepted, NaN rejected.
* `cluster_peaks` takes the frequencies of peaks sorted by period for sorted; neighbouring double precision frequencies can have the same rounded period and be out of order
  (`C122_unsorted`). The effect on the clusters is of the size of two roundings (C122).
* One NaN or infinite sample makes every S/N of a search NaN, without an exception or a warning of riptide's own, and no peak is reported (C112).
* For more than about 2^26 samples and a downsampling factor just above 1, rounding can make the first and last sample of a window of `downsample` the same
  sample, which then is counted twice (seen in the analysis of the rounded model; still inside the buffers by C75).
* The binding `periodogram` does not check the widths (`snr1` and `snr2` do): w = bins gives 0 * inf, w > bins wraps `size - w`. `ffa_search` with ducy_max >= 1
  gets there, see C59 for ducy_max < 1.
* `data.fmin` and `data.fmax` in the wrong order are accepted by the validation, the DM selection and the search; the run stops with ValueError in
  `flag_harmonics`, after the whole search and before anything is saved (`C102_band_order`).
* An X-ray or gamma-ray `.inf` file can be loaded but never be given to the pipeline: `infer_band_params` reads `fbot`, which such files do not
  have, and the `KeyError` is not caught, so the documented fallback to the values given for fmin, fmax and nchans is not reached
  (C103_high_energy). Such files have no DM either.
* The median observation time in the clustering radius is computed from the number of samples announced in `.inf` headers, while the search uses the
  number of samples in the data files (C53, C103).
* `validate_range` accepts a range whose period_min is exactly candidates.bins samples, but folding needs strictly more: a peak at exactly
  period_min then loses its candidate. C100 and C102 exclude this case.
* `save_products` does not remove files of earlier runs: with fewer candidates than before, `candidate_NNNN.json` of the earlier run stay next to the new
  `candidates.csv`, and a run without peaks leaves all products of the earlier one (C104_stale). From 10000 candidates on, the names of their files no
  longer sort like the ranks (C104_names_unsorted).
* A TimeSeries made from a slice with a step or a reversed array (`x[::2]`, `x[::-1]`) of type float32 keeps the view: it can be normalised and dereddened, but `downsample` and `fold` raise
  ValueError, and so does `ffa_search` with `deredden=False, already_normalised=True`; the same slice of a float64 array works (C109). `boxcar_snr`, documented for data of any shape, raises ValueError for
  profiles stored by columns, for instance the transpose of an array, whatever their type.
* A SIGPROC file whose header has no `source_name` or no `tstart` is searched without complaint, but none of its candidates can be plotted (C105_sigproc): with
  plot_candidates set, of each batch of about n / (4 processes) candidates only the first is saved, and the run ends with an exception (C105_none).
* `Pipeline.from_yaml_config` converts the configuration to JSON for a debug message, whatever the log level, before validating it: a date anywhere in the file raises TypeError (C111). Numbers like
  `1e-1` or `5e3` (no dot, or no sign in the exponent) are texts for PyYAML: entries validated with `Use(float)` take them, `rmed_width`, `rmed_minpts`, `dmsinb_max`, `radius` and `ducy_max` do not (C110).
* `downsample_vertical(folded, m / subints)` computes the number of rows as the floor of m / (m / subints) in double precision: for about 5 % of all pairs of numbers of periods and sub-integrations (counted for up to 300 sub-integrations and 1500 periods) the result is one row
  short, and the data of that row are not in the candidate, nor in its profile (C123_rows_false). Powers of two are safe. The number of full periods is one short if the length of the data is a multiple of the period and a quotient is rounded the wrong way (C123_rejected, C123_zero).
* Constant data, also data that are constant after `deredden`, are divided by a standard deviation of zero: every S/N value is NaN, no exception tells of it (C132_constant).
* `ffa_search` takes any positive `ducy_max`. With 1 or more the largest width can equal the number of bins, and the S/N values of that width are NaN for every fold with as many bins (C132_full_width); `boxcar_snr` rejects
  such widths, the search does not.
* `snr1` keeps its `size + wmax` prefix sums in a variable length array on the stack (snr.hpp 40): profiles of about two million bins and more need more than the usual 8 MB. The model has no stack (section 8).
* The docstring of `hdiag` gives frequencies in Hz, the constant 4.15e3 is for MHz and the pipeline passes MHz.

## 7. Tests of the theorems on wrong programs

`seeded/LOG.jsonl` has one line for each edited model (1009 lines): the definition, the edit, the claim that it breaks, the
theorems that failed and, where the edit survived at first, the theorems that were tightened. The edits were made in a copy outside of
this directory. A few attempts tested no theorem of the claim, because the edited definition did not compile or a termination lemma
in the model file failed first; their lines say so in `note`. They are not evidence for
the theorems.

## 8. Not modelled

Plotting (but for what is given to matplotlib, C71, C116 and C117), logging (but for formats that can fail, C73, and the log file, C118), timing decorators, argument
parsing (but for the conversion of the options of rseek, C79, and the required ones of rffa, C118), astropy coordinate transforms (arbitrary functions), CSV text other than the three tables of the pipeline (C104), the number of blanks in the table of rseek (C106), the text of YAML documents (but for plain scalars, C110; the rules of PyYAML are written down from memory, the library was not at hand for comparison), tags, anchors and keys that are not strings in them, numpy dtype
casting other than that of samples (C131) and where stated, the algorithm of `np.polyfit` (any threshold function is allowed instead; in C91 and C92 any least-squares polynomial), the random number generator, C++ compiler
code generation, the size of the stack and of the heap (every allocation succeeds), operating system file semantics beyond "a file is first created and later complete".
