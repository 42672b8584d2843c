# Formal model of predict-idlab/seriesdistancematrix: design

## Layout

* `lean/Verif/Py.lean`, `PyArith.lean` – the fragment of Python/NumPy the code uses: slices, slice assignment, broadcasting,
  exceptions as values, the float type `Fl K` (NaN, -inf, finite, +inf; IEEE comparison, NumPy `min/argmin/sort` order).
* `lean/Verif/Rnd.lean` – programs that draw random numbers (a tree of draws; every outcome, and exact probabilities).
* `lean/Verif/Model/*.lean` – the model, one module per source file; every definition cites the lines it models.
* `lean/Verif/Spec/*.lean` – small specifications, written without reference to the model (cells of a matrix, paths, windows,
  means and deviations, z-normalised distance, "last value delivered", greedy selection, radius of a subsequence, motif ...).
* `lean/Verif/Lemmas/*.lean` – helper lemmas.
* `lean/Verif/Props/*.lean` – the property theorems, named `Cxx_...` (listed in `MANIFEST.json`), each followed by an `example`
  that applies it to concrete, non-trivial data, or that shows that its hypotheses can be met.
* `properties.jsonl` – the properties, `seeded/LOG.jsonl` – wrong programs tried on the theorems.

## Trusted base

* The Lean 4.33.0 kernel. No axioms are declared; nothing uses `sorry`, `native_decide` or `bv_decide`. `#print axioms` on every
  theorem of the manifest reports only `propext`, `Classical.choice` and `Quot.sound` (some use only `propext`, or `propext` and `Quot.sound`).
  Witnesses over `ℚ` and `ℤ` are checked with `decide +kernel`, i.e. by kernel reduction.
* Mathlib, imported one module at a time: its theorems are checked by the same kernel, its definitions (`ℝ`, `√`, `⌈·⌉`, finite
  sums, `List.insertionSort`, ...) are part of the statements.
* The model: that the definitions in `Verif/Model` (and `Py.lean`) say what the cited Python lines do. This is by reading, the code was not run.
* The statements: that the definitions in `Verif/Spec` and the theorem statements say what the properties say.

## Modelling decisions

* Arrays are lists (1-D), lists of columns (2-D arrays in ring buffers, whose last axis slides) or functions of two indices with
  their shape (2-D arrays that never change shape). N-dimensional arrays with strides occur in `sliding_window_view` (C11).
* Floats are `Fl K`: exact elements of an ordered field or linear order `K` plus NaN and the infinities. Consumers are generic in the linear order
  `K` and only compare (except `MultidimensionalMatrixProfileLR`, which averages), so rounding does not concern them; generators use an ordered field or `ℝ`. **Rounding is modelled for the two
  generators (C81–C87) and carried over to whole batch and streaming calculations (C88, C89); overflow is not modelled.** The other generator properties are about exact arithmetic and can fail in floating point by the size of rounding errors.
* Rounding (`Verif/Rounding.lean`): `IsRounding rnd u η` lists what is used of a rounding function; `b64` is binary64 rounding to nearest, ties to even, with gradual
  underflow and unbounded exponent above, proved to be one. `Model/RoundedEuclidean.lean` is the Euclidean generator with every operation rounded. `np.cumsum` of a
  1-D array adds from the left; `np.einsum` and `np.dot` may add in any order and may fuse a product with an addition (`DotEval`). Without rounding the
  model is the exact one (`calcDiagonal_id`, `calcColumn_id` in `Lemmas/RoundedExact.lean`). `Model/RoundedZNorm.lean` does the same for the z-normalised generator; there `np.mean`, `np.std`
  (`Stat`) and `scipy.signal.convolve` (`conv`, direct or FFT) are parameters, of which only the size of the errors is assumed. `Model/RoundedStats.lean` models `np.mean`, `np.std` (two passes) and direct convolution with sums in any order
  and C87 bounds their errors; convolution by FFT, which SciPy may choose, remains a parameter. The state after an exception is not part of it (see C34 for that).
* Integers are unbounded (NumPy index arrays are int64). Element types other than floats are modelled where the code keeps them (`StreamingStats`, C77); both
  distance generators convert their data to floats.
* Arrays are values, not references. The places where two names share memory were checked: the ring buffers shared by series and query of a
  self-join are one buffer in the model; `work in same array` (euclidean.py:132, znorm_euclidean.py:268) overwrites an array nobody else holds;
  generators return fresh arrays (`np.sqrt`), which the filter and the calculators may overwrite; `np.roll` of a view detaches it from its buffer, which is modelled
  (C52); constructors copy their arguments (`np.array`, `RingBuffer.push`, `astype(copy=True)`). A view handed out by a property is only meaningful until the next call.
* `np.empty` memory is an arbitrary list supplied as an argument: results hold whatever it contains.
* Exceptions are `Except PyErr` (only the class). The state after an exception is modelled where a property speaks of it
  (`StreamingStats.append`, `ZNormEuclidean.append_*`: C16, C34).
* Signals: an arbitrary Boolean oracle tells, at each look at `is_interrupted()`, whether a SIGINT has arrived; the handler itself is
  modelled for arbitrary programs in C17.
* `np.argsort` (unstable) is any function that returns *some* sorting permutation of the indices.
* `random.shuffle` is an arbitrary rearrangement. Random draws are every outcome (C42) or exact rational probabilities (C43).
* pandas `rolling`, scipy `convolve`, numpy `einsum`/`cumsum` are modelled by their mathematical definition.
* Generators and consumers inside calculators are abstract objects (`Ops`) for the calculator properties; concrete ones are put in for
  the end-to-end properties (C56, C57, C60–C63, C66–C72, C75, C76, C78–C80): `Model/Assembly.lean` and `Model/Batch.lean` build whole calculators with any number of
  channels, generators of both classes and consumers; `Model/Consumers.lean` gives the interface of each consumer class. `Lemmas/Cases.lean` collects
  the arguments of a whole batch or streaming calculation and the conditions on them (`BatchCase.Ok`, `StreamCase.Ok`).
* Sessions (C90, `Model/Sessions.lean`) are lists of calls to one calculator. Consumers are keys of Python dictionaries; none of the classes defines
  `__eq__`, so keys are objects, and adding one again keeps its place in the dictionary, replaces its generators and initialises it anew.
* Appends that raise (C91, `Model/Rejected.lean`): the same methods with the state at the moment of the exception; `appendSeriesX_agree` and `appendQueryX_agree` prove
  that both models agree on results and exceptions.
* `MatrixProfileLRReservoir` next to a calculator (`Model/ReservoirConsumer.lean`): each object has its own `RandomState`; the object is the tree of its possible states
  (`Rnd`). A call that raises for some draws is taken to raise; the theorems show that none does. Draws are independent and exactly uniform: no statement about the
  generator behind `RandomState`.
* Generator ids are natural numbers in `Model/Calculator.lean`; `Model/GeneratorIds.lean` has the same loops with any integers (NumPy and Python indexing, negative ones count from
  the end). A generator that is named in two ways (`[0, -2]`) is asked twice per column; ids that are not integers (slices, Booleans) are not modelled.
* Consumers of different classes in one calculator are values of a sum type (`Ops.mix`, `Model/Mixed.lean`); a method goes to the class of the object. Consumers receive
  `column_dists[generator_ids, :]`, an advanced index that makes NumPy copy, so that no consumer can alter what another receives (calculator.py:124, 255).
* Dimensionality (`ndim`) and `isinstance` guards are expressed by types, unless a property speaks of them.

## What is modelled

| file | modelled | not modelled |
|------|----------|--------------|
| `ringbuffer.py` | constructor, push, views, reading, writing | `__delitem__`, `__eq__`-style forwarding; multi-dimensional pushes other than along the last axis |
| `util.py` | `diag_length`, `diag_indices`, `diag_indices_of`, `cut_indices_of`, `shortest_path_distances`, `shortest_path`, `sliding_window_view`, `sliding_min`, `sliding_max` | – |
| `insights.py` | both functions | – |
| `math_tricks.py` | all | streaming of non-1-D data |
| `interrupt_util.py` | `interrupt_catcher` | demo under `__main__` |
| `calculator.py` | all three calculators, `_ratio_to_int`, `_find_invalid_subseq_idxs`, progress lines (exact numbers, arbitrary clock) | formatting of the progress lines |
| `generator/euclidean.py`, `znorm_euclidean.py`, `filter_generator.py` | bound, streaming and batch generators with their caches | docstrings, abstract base classes |
| `consumer/*.py` | every consumer, `GeneralStaticManager` | trivial property accessors |
| `ostinato.py` | `find_consensus_motif`, `find_consensus_motif_subset`, `OstinatoAnytime`, `_MPReverse`, `_calculate_mp` | – |
| `valmod.py` | all | – |
| tests, docs, notebooks, `setup.py` | – | all |

The module comment of each model file repeats what is left out of that file.

## Where the code and the properties disagree

Each has a theorem with a concrete witness, and the property is proved outside the exception (theorems named `..._partial`).

| id | failure |
|----|---------|
| C04 | scaling factor above 2: `push` of a chunk can raise (`C04_scaling_above_two_fails`, exact condition `C04_push_fails_iff`) |
| C16, C34 | a rejected append (non-finite data) has already changed the data buffer |
| C77 | `StreamingStats` started on integers drops the fractions of appended values, and accepts NaN |
| C17 | a handler not installed from Python cannot be restored (`TypeError`) |
| C20, C46 | self-join with `trivial_match_buffer=-1`: the main diagonal is delivered twice |
| C28, C30 | `append_series` counts dropped points wrongly when the window fills up: a stale cached column is used |
| C28, C60, C61 | Euclidean columns: a clamped tiny distance becomes a small negative number in the next cached column, hence NaN |
| C97 | progress of `calculate_columns` ends at n/(n+1); progress of `calculate_diagonals` may exceed 100% with a negative time left |
| C98 | indices of a `ShiftingMatrixProfileLR` that is added after the windows have moved are not positions in the complete query series, and left/right follow the same offset |
| C99 | a `ContextualMatrixProfile` that is added after the windows have moved counts contexts and match indices from the beginning of the windows at that time, not of the streams; `initialise` of an object that was used before keeps its shifts and the state of its context manager |
| C100 | consumers without `shift_series`/`shift_query` (`MatrixProfileLR`, the counters, the radius profiles) make `append_series` and `append_query` raise `AttributeError` once a window moves, after the generators and the counters have taken the points and before the last calculated column is moved: the columns that entered the window are never calculated |
| C101 | indices of a `MultidimensionalMatrixProfileLR` that is added after the windows have moved are not positions in the complete query series, and left/right follow the same offset |
| C102 | `add_consumer` accepts ids of no generator (`IndexError` at the first column or diagonal); a negative id stands for another generator after `add_generator` |
| C47 | NaN is counted |
| C49 | repeated track indices stay NaN |
| C50 | no non-empty context: `IndexError`; empty lookup ranges can return contexts |
| C51, C53 | a NaN hides all other values of the same delivery |
| C52 | query contexts roll in the wrong direction, and the roll is undone by the next series shift |
| C54 | several failures of multi-channel diagonals (long query, lagging shifts, right profile polluted, negative distances) |
| C56 | `other_series_idx` ignores `j`: wrong for k >= 4; `+ j` repairs it (`C56_repaired`) |
| C62, C66 | the Euclidean failure above reaches every consumer (`C62_euclidean_nan`, `C66_euclidean_nan`) |
| C63, C71 | `initialise` does not reset the shifts of a consumer object used a second time |
| C64 | infinite values are treated as missing by pandas |
| C65 | `_find_invalid_subseq_idxs` uses `range` with a single argument |
| C69 | `ThresholdCounter`: columns followed by diagonals count pairs twice |
| C71 | diagonals of a query longer than the series raise |
| C82 | in `float64` cached Euclidean columns can be NaN on ordinary data (`C82_nan_wrong`), within the error bound |
| C86 | in `float64` equal subsequences far from 0 do not have distance 0, and distances exceed their maximum `2√m` (`C86_range_wrong`) |
| C83 | in `float64` an outlier spoils all later distances on its diagonal (`C83_outlier_wrong`) |
| C59 | `np.min([])` raises when every column is settled by its list; `cache_size=0` raises; with `noise_std > 0`, or with subsequences that count as flat without being constant, the bounds do not bound the distances and a worse pair can be returned |

## Proof plan per property

| id | model | proof |
|----|-------|-------|
| C01–C05 | `RingBuffer` as memory list + view window, branch by branch | invariant + refinement to "last n of the stream" by induction over operations |
| C06–C08 | `diag_*`, `cut_*` on integers | arithmetic, enumeration lemmas, induction for the sums |
| C09–C10 | dynamic programme and backtracking on a cost function | induction over cells / over remaining path length |
| C11 | strides arithmetic over a flat memory | induction over dimensions |
| C12–C14 | greedy loop | loop invariant |
| C15–C16, C77 | windows over ℝ, three ring buffers | C01 refinement |
| C17–C18 | handler state machine; loops with an interrupt oracle | case analysis; induction on the remaining work |
| C19–C26 | calculators as state machines over abstract generators/consumers | event-trace refinement, induction over histories |
| C27–C34 | generators over `Fl ℝ`, caches included | cache invariant by induction over operations; algebra |
| C35–C37 | filter model | loop invariant; derived-window buffer lemma |
| C38–C54 | consumers | refinement to the set of delivered cells |
| C55–C57 | Ostinato over an abstract distance table | pruning invariants |
| C58–C59 | VALMOD | least-squares inequality over ℝ; pruning invariant |
| C60–C61 | composition | corollaries |
| C62, C66 | whole calculators | what every consumer receives, as an explicit list of calls, by induction over the calls of the user |
| C63, C67–C72 | whole calculators with each consumer class | C62 / C66 composed with the theorem about the consumer |
| C73, C74 | laws of z-normalised distances; closest pair of a self-join | sums of squares over the specification of C29; corollary of C67 |
| C75 | whole calculators, any data | generators whose columns are only related to the distances (`Lemmas/NearServes.lean`); cached squares stay within 1e-15 below the squared distance |
| C76 | `DistanceMatrix` in whole calculators, any data | the consumer keeps equal or related entries equal or related; with C75, C44 and the deliveries of C68 |
| C78 | whole calculators with filters (`Model/Filtered.lean`), data with NaN and infinities | the assembly of C75 for points of any type; a filter around a generator of C75 is again such a generator (`Lemmas/NearFilter.lean`) |
| C79 | `MatrixProfileLR` and `ShiftingMatrixProfileLR` in whole calculations with filters | C78 for exact distances and the profile lemmas of C67/C63; `C79_hole_wrong` shows that the 0 in place of a marked point can spoil Euclidean columns |
| C80 | `DistanceMatrix` in whole calculations with filters, any data | C78 and C44; values near the distances give a matrix near the exact one (as in C76) |
| C81 | Euclidean diagonals with rounding | `Close` (a calculus of first order error terms) along the running sums; monotonicity of rounding gives non-negative differences |
| C82 | Euclidean columns with rounding, any order of additions | a cache invariant with a number of updates per row: the value in row i has been shifted at most i times since its full calculation (`Lemmas/RoundedColumn.lean`); error of a dot product in any order by induction over its evaluation |
| C83 | the same with data of few digits | all intermediate results are multiples of 4⁻ᵗ below 2⁵³·4⁻ᵗ, hence floats |
| C84 | z-normalised columns and diagonals with rounding, any statistics and dot products | denominators are at least the rounded square of the threshold; values below `_EPS` are replaced by 0 |
| C85 | the same with bounded errors of the parts | errors of products, quotients (correlation at most 1) and roundings combined (`Spec/Rounding.lean`); drift of the dot products as in C82, running sums as in C81 |
| C86 | range and identity with rounding | corollary of C85; counterexample by evaluation |
| C87 | C85 with statistics and convolutions calculated in any order | induction on the order of summation; root mean squares by Cauchy–Schwarz; then C85; numbers by evaluation over ℚ |
| C88 | Accuracy of whole batch calculations in floating point | C82, C84, C85 as invariants of generators that have been given the whole series; C67 for values that are only close; induction on the calls for profiles, matrices and counts |
| C89 | Accuracy of whole streaming calculations in floating point, whatever the length of the stream | the invariants of C82 and C85 under appends; C76 for values that are only close; the errors of cached columns are bounded by the row, so they do not accumulate over a stream |
| C90 | Sessions: generators and consumers added at any time, consumers also again | invariant: each consumer is in the state of its own history since it was last added (`Spec/Sessions.lean`); the state of every generator stays one that serves the data it was given since it was added (`LateInv`); columns calculated before a late generator has caught up: `C90_late_wrong`, `C90_late_raises` |
| C91 | A rejected append leaves the calculator as it was | `Model/Rejected.lean` follows the state up to the exception; false when a generator refuses the data (`C91_not_atomic`, after any session) |
| C92 | `MatrixProfileLRReservoir` in whole batch calculations | exact distribution for any sequence of calls (`BatchCase.Drawn`); not uniform when pairs are delivered twice (`C92_not_uniform`), indices of trivial matches (`C92_band_index`) |
| C93 | `ContextualMatrixProfile` in whole streaming calculations | `CtxStream`: contexts of the streams and any manager that follows them; invariant: the entries are the minima over everything delivered (C51) in stream positions; false while the query window is not full (`C93_unfilled_raises`) and for query contexts that move (`C93_query_wrong`) |
| C94 | `ThresholdCounter`, `RadiusProfile0`, `RadiusProfile`, `DistancedThresholdCounter` in whole batch calculations with filters | the lemmas of C70 and C72 about what the consumers make of columns, with the deliveries of C78: marked pairs are at `+inf` |
| C95 | `ContextualMatrixProfile` in whole batch and streaming calculations with filters | the lemmas of C70 and C93 (`CMP.static_fed`, `CMP.stream_fed`) with the deliveries of C78 |
| C96 | `MultidimensionalMatrixProfileLR` in whole batch and streaming calculations with filters | the lemmas of C71 for any values (`MDMP.batch_fed`, `MDMP.stream_fed`, `MultiMinV`) with the deliveries of C78; a mean that includes a marked dimension is `+inf` |
| C97 | `Model/Progress.lean`: `print_progress=True`, the lines printed | simulation of the loops without printing; lines compared to a closed form |
| C98 | Sessions (C90) with `ShiftingMatrixProfileLR` objects added late and again | a streaming calculation delivers the same as one whose streams begin later (`SameWindows`, `MSt.since`); the invariant of C41/C63 from any state and with kept shifts (`shifting_feed_from`); `initialise` keeps the shifts, so an object counts from its first addition |
| C99 | Sessions (C90) with `ContextualMatrixProfile` objects added late and again | `calls_stream` and `CMP.Follow` of C93 from any state; `CMP.initialise_from`: a reused object keeps shifts and manager state and forgets distances; C98's `MSt.since` |
| C100 | `MatrixProfileLR`, `ThresholdCounter`, `DistancedThresholdCounter`, `RadiusProfile0`, `RadiusProfile` in a `StreamingCalculator` | while no window moves, the columns are calculated once each, in order, for the rows present at that time (`Stairs`); then the column lemmas of C66–C69. After an exception: `Streaming.appendSeriesX` (C91) with consumers that raise, and `stream_session_from`: a session continued from any state |
| C101 | Sessions (C90) with `MultidimensionalMatrixProfileLR` objects added late and again, also for another number of generators | the invariant of C71/C96 from any state; `MDObj.initialise_from`: a reused object keeps its shifts but is as new otherwise; C98's `MSt.since` |
| C102 | `Model/GeneratorIds.lean`: calculators whose consumers have lists of any integers as generator ids | simulation: with ids of generators the loops do what those of `Model/Calculator.lean` do with the generators the ids stand for; without, the first column or diagonal raises |
| C103 | `Model/Mixed.lean`: consumers of different classes in one calculator | bisimulation of a calculator with one that has a single of its consumers (`Company`, `Joint`); a generator's answers do not depend on what it was asked before, as far as accepting points goes (`Spec.Indifferent`) |
| C104 | Pairs of whole batch calculations with series and query exchanged | both distances are symmetric; theorems of C66–C70 applied to both (`BatchCase.Swapped`, `BatchCase.Complete`) |
| C105 | Pairs of whole streaming calculations that append the same points before each `calculate_columns` | `Spec.asked` says what was appended before each calculation; streams, calculated pairs and deliveries at their positions are functions of it (`askedRun`, `askedColumns`); witness for Euclidean generators by evaluation |
| C106 | Pairs of a `FilterGenerator` and the generator it wraps, same calls | `Filter.replies` runs calls and collects what they return; induction over the calls with the masks all clear; sizes of replies of the library's generators from `GenKind.nearServes`. Calculators (`C106_calculator_*`): C109 with the relation 'same generator, possibly behind a filter with clear masks'; in streams the number of entries of a column needs no condition on the data (`Lemmas/ColumnSizes`) |
| C107 | Pairs of whole calculations that make the same calls on data related by affine maps | the calls consumers receive are a function of the distances (`batchEvents_congr`, `streamEvents_congr`); the distances do not change (`GenKind.Keeps.dist`, from the laws of C73); for Euclidean generators alone C109, which needs no condition on the data |
| C108 | Pairs of whole calculations with filters, data equal up to the values of marked points | two-run simulation: the filter zeroes marked points before its generator sees them (`alike_zeroed`), so states of generators are equal after every call, also in runs that raise; `FKind.Made` keeps the filter of a generator fixed |
| C109 | Pairs of whole calculations with generators of different classes | two-run simulation over `Alike` (both raise the same, or both succeed with related states); the generators are related by any bisimulation (`Answers` in batch, `Mimics` in streams), whose answers have to agree only for columns and diagonals of the distance matrix. Used for Euclidean generators on mirrored and shifted data (C107), where ring buffers with related contents are pushed in step (`RB.Twin`) |
| C110 | Pairs of whole batch calculations, one on the data read backwards | both distances are sums over a window, taken in the other order; theorems of C67, C68, C69 and C71 applied to both (`BatchCase.Reversed`) |
| C111 | Pairs of whole batch calculations, one on longer data | nearest rows among more rows (`BatchCase.Extended`, `nearest_more`, `nearest_same`, `multiMin_le`); theorems of C67–C71 applied to both |
| C112 | Pairs of whole calculations with consumers of different classes | the calculators treat consumers alike as long as corresponding calls do (`InStep`, `batch_inStep`, `stream_inStep`); call by call the buffers hold the same numbers (`OneChannel.Pair`, `SameProfile.Pair`). `C112_columns_differ` shows why `MatrixProfileLR` is compared for diagonals only |
| C113 | Pairs of whole calculations whose `MultidimensionalMatrixProfileLR` consumers have the same generators in different order | `InStep` allows permuted ids; the columns handed over are permutations of each other, so `np.sort` makes them equal; the buffers of the dimensions differ in their contents only (`RB.Like`) and therefore raise alike |
| C114 | Pairs of whole calculations with `RadiusProfile0` and `ThresholdCounter` consumers; `DistancedThresholdCounter` and `RadiusProfile` with exclusion 0 next to the classes without exclusion zone | The k-th smallest number is at most θ iff more than k numbers are (`kth_le`); with exclusion 0 the greedy selection takes every match. Column sequences in (2) and (3) are those of the consumers' own methods; a column given twice is counted twice by `DistancedThresholdCounter`, and NaN is counted too (C47) |
| C115 | Pairs of whole calculations whose counters or radius profiles have different lists of thresholds or track indices | `InStep` with the relation "rows for equal thresholds are equal"; for `DistancedThresholdCounter` the row of θ is the count of a loop that knows θ only (`Separate.chosen`), for any order of the indices that `np.argsort` may return |
| C116 | Pairs of contextual profiles whose contexts are unions of each other's, and a contextual profile beside a matrix profile | Both entries are the smallest cell of a set of cells (C51 and C39); equal sets have equal smallest cells. Only distances are compared: match indices may differ when distances are equal |
| C117 | Pairs of calls of the functions of `ostinato.py` | From C55, C56, C57: radii are transported along a permutation of the indices. Leaving series out uses the triangle inequality of z-normalised distances, which holds up to 2e-6 because distances below 1e-6 are reported as 0. For `find_consensus_motif_subset` only `k` 2 and 3, because the code is wrong for larger `k` (C56) |
| C118 | Triples of generators and of batch matrix profiles | Exact arithmetic: flat subsequences count as the zero vector, so that the z-normalised distance before the replacement of small values by 0 is a Euclidean distance (Minkowski's inequality). Profiles: from C60 |
| C119 | `find_variable_length_motifs` beside batch matrix profiles, and pairs of calls of it | Exact arithmetic, from C59 (with its conditions) and C60. Lengths for which the calculator rejects the trivial match buffer are excluded |
| C120 | Pairs of calls of the consensus functions and of `find_variable_length_motifs` | Exact arithmetic, from C55, C56 (k up to 3), C57 and C59. Where the constant for flatness, 1e-6, separates the two units, the claim is not made (and is false) |
| C121 | Consensus functions beside batch matrix profiles of all pairs of series | Exact arithmetic, from C55, C56, C57 and C60 |
| C122 | Pairs of calls of the motif functions | Exact arithmetic, from C55 and C59 |
| C123 | The same batch calculation with consumers of four classes | at any moment, from C67, C68, C69 (diagonals only: `C69_counted_twice`) and C70; partial where these are |
| C64–C65 | small functions | induction over the array |

Properties from C62 on were added while the model grew; see `properties.jsonl`.
