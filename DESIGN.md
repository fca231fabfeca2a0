# Formal model of omangin/multimodal in Lean 4

This directory holds semantic properties of the Python package in `/repo`
(`properties.jsonl`), a Lean 4 model of the code (`lean/Verif/*/Model.lean`),
small independent specifications and the theorems (`lean/Verif/*/Props.lean`).
`MANIFEST.json` maps each property to the theorems that prove it;
`seeded/LOG.jsonl` records the mutation tests made against the theorems.

## Layout

* `lean/Verif/Py.lean`: the Python vocabulary shared by all models (exceptions
  as values, indexing, slicing, `range`).
* `lean/Verif/<Area>/Model.lean`: definitions, each citing file and lines.
* `lean/Verif/<Area>/Lemmas.lean`: helper lemmas (when long).
* `lean/Verif/<Area>/Props.lean`: specification, property theorems named
  `C<nn>_...`, and `example`s showing that the hypotheses are reachable.

## Conventions of the model

* Exceptions are values: a Python function which may raise is a function to
  `Except PyErr a`; the error constructor records the exception class, not its
  message.
* `while` loops carry fuel and return `none`/an error when it runs out; the
  theorems show that the fuel given is always enough, or hold for all fuel.
* Random choices (`random.shuffle`, `np.random.shuffle`, `np.random.random`),
  iteration order of sets, `argsort` on ties, files and the external
  numerical routines (k-means, SVD, MFCC, wav reading) are parameters of the
  model. Theorems quantify over all of them, under the stated contract of the
  routine (for example: a shuffle returns a permutation of its argument).
* Mutable objects are modelled by values and state passing. Aliasing is not
  modelled, except where a definition says so.
* Floating point numbers are replaced by exact numbers: rationals (`ℚ`, so the
  model runs) where the code uses field operations and comparisons, reals
  (`ℝ`) where it uses `log`, `exp`, `sqrt` or trigonometry. NaN, infinities
  (except the initial `prev_error = inf` of NMF), rounding and overflow are not
  modelled unless stated. Every finite float is a rational, so the inputs are
  covered; what is idealised is the rounding of each operation. Separate models
  with rounding (some with overflow and NaN) are in C192 to C203, C205 to C207,
  C211, C212, C222 to C225 and C227 to C229.
* Arrays are lists (of rows) or functions on `Fin n`; dtype is not modelled,
  except integers in C221, C226 and C230.

## Trusted base

* Lean 4.33.0 kernel, and Mathlib as installed (its theorems are re-checked by
  the kernel). Axioms used by the theorems: at most `propext`,
  `Classical.choice`, `Quot.sound`. No axiom is added, no `sorry`,
  `native_decide` or `bv_decide`.
* The faithfulness of the hand-written model to the Python source: each
  definition cites the lines it models and states its simplifications.
* The conventions above.

### Code which is modelled
Each definition cites the lines it models. By area (directory of `lean/Verif`):

| area | source |
| --- | --- |
| Window | `lib/window.py` |
| Utils | `lib/utils.py` |
| Pairing | `pairing.py` |
| Evaluation | `evaluation.py` |
| Munkres | `lib/munkres.py` |
| Logger | `lib/logger.py` |
| Arrays | `lib/array_utils.py` |
| Metrics | `lib/metrics.py` |
| Sound | `db/models/sound.py`, `lib/metrics.py` (sparsity) |
| Objects | `db/models/objects.py` |
| Motion | `db/models/kinect_motion.py` |
| Loaders | `db/models/loader.py`, loaders of `db/*`, `lib/net.py`, `db/acorns.py` (downloads) |
| NMF | `lib/nmf.py` |
| Learner | `learner.py` |
| Features | `features/hac.py`, `features/angle_histograms.py` (histograms), `lib/vector_quantization.py` |
| KDE | `lib/kde1d.py`, `lib/kde2d.py` |
| Experiment | `experiment.py` (not file access; how numbers are written is a parameter; the learner is a parameter, see the area Learner) |
| Transf | `lib/transformations.py` (quaternion and Euler functions: `quaternion_*` except slerp and random, `euler_*`), `features/angle_histograms.py` lines 26-72 |
| Corpus | `db/models/vctk.py`, `db/models/acorns.py`, `db/choreo1.py`, `lib/config.py` |
| Plots | `plots.py` (what is given to matplotlib), `lib/plot.py` (`plot_var`) |
| Samples | `samples/launcher.py` (experiments, jobs, collection), `samples/image_sound_eval_sliding.py` and `samples/plot_image_sound_eval_sliding.py` (windows, words, labels, confusion), `samples/plot_info_matrix.py` (labels, information, order) |
| Geom | `lib/transformations.py` (translation, reflection, rotation, scale, projection, clip, shear, orthogonalization matrices, concatenation and comparison, slerp, random rotations, `Arcball`, `decompose_matrix`, `compose_matrix`, `superimposition_matrix`, `reflection_from_matrix`, `rotation_from_matrix`, `scale_from_matrix`, `projection_from_matrix`, `shear_from_matrix`) |
| Sklearn | `lib/sklearn_utils.py` |
| Datasets | `db/acorns.py`, `db/objects.py`, `db/choreo2.py` (files), `db/models/objects.py` (save, load), `db/scripts/download_dbs`, `db/scripts/parse_objects`, `db/scripts/build_acorns_features`, `local.py` |
| Datasets | `db/vctk.py`, `features/hac.py` (`build_codebooks_from_list_of_wav`, `wav2hac`), `db/scripts/parse_vctk`, `db/scripts/parse_acorns`, `db/scripts/build_codebook` |
| Style | `lib/plot.py` |
| Sound | `db/models/sound.py` (`Record.getDom`) |
| Experiment | `samples/icdl2013.py`, `samples/image_sound.py` |
| Logger | `multimodal/lib/logger.py: Logger.__eq__` |
| Experiment | `multimodal/experiment.py: save_serialized_parameters, load_from_serialized` |
| Plots | `multimodal/plots.py: plot_k_graphs, plot_2k_graphs, plot_boxes, plot_boxes_by_feats, plot_boxes_all_mods` |
| Samples | `samples/launcher.py: actions, get_stats, print_refreshed_stats` |
| Samples | `samples/two_modalities.py, three_modalities.py` as jobs |
| Samples | `samples/image_sound_eval_sliding.py:50-132` |
| Motion | `multimodal/db/models/kinect_motion.py:62-98,119-274` on disks |
| Features | `multimodal/features/hac.py:30-65,110-149,172-201` with keyword arguments |
| Samples | `samples/plot_image_sound_eval_sliding.py:24-176` |
| Plots | `multimodal/plots.py:319-328` annotate |
| NDArray | `multimodal/lib/transformations.py:1535-1615` on arrays of any number of dimensions |
| Imports | `multimodal/lib/transformations.py:1681-1705` |
| NMF | `multimodal/lib/nmf.py:23-26,52-70,147-257,297-351` on stored csr matrices |
| Window | `lib/window.py` with each operation on times rounded (`Rounded.lean`) |
| C195, C196 | `Munkres/Rounded.lean`: `munkres.py` with each sum and difference rounded by `fl` | C195: invariants of trees and matchings on the graph without its numbers (`flat`), for any `fl`. C196: invariants with errors (`Near`, `Phase`: feasibility, tightness, size of labels) through updates of labels, searches and augmentations; exact when the error is zero; witnesses computed with doubles |
| C197, C198 | `NMF/Double.lean`: `nmf.py`, `normalize_sum` and `generalized_KL` on doubles with overflow (`none`), sums and products in any order (`Plan`, `Order`) | C197: invariant `Inv` (coefficients at most 2^459, components at most 1) through updates: sums of at most 2^53 numbers below a power of two are at most the number times this power, without error (`eval_bd`), and a coefficient times `Q` times a component is at most about the data (`Q_spec`). C198: zeros by multiplication; `stop` on finite errors; one factor 1 - 2^-53 for each addition (`sum_lower`). Witnesses of overflow and underflow. `update_exact`: without rounding, the model of C54 |
| C199-C202 | `Evaluation/Double.lean`: `metrics.py` and the classification of `evaluation.py` on doubles with infinities and NaN; sums in any order (`Tree`); `np.argmin` with NaN | C199: `argmin_spec` by induction; sums of squares are not negative and zero only for zero terms; errors by `sum_err` (one factor 1 + 2^-53 per addition) and the contract of the square root. C200: dot products by `sum_err`, Cauchy and Schwarz; the similarity of a row and itself is 1 since the root of a rounded square is exact (`sq_dbl_mul_self`). C201: errors through sum, quotient, logarithm, product; witness with log 2 < 3/4. C202: fractions k/n differ by at least 1/n, more than rounding. Witnesses for overflow, underflow, similarity above 1 and negative divergence |
| C203 | `Arrays/Double.lean`: `normalize_features` on doubles, by columns, dense and sparse | a sum of doubles which are not negative is zero only if all are (`sum_zero_iff`) and at least each of them (`sum_ge`); errors by `sum_err` and `quotient`. Witnesses of overflow and of cancellation which depends on the order |
| C204 | `Datasets/Model.lean`, `Codebooks.lean`: downloads and import scripts with any directories | induction over the list of files (`retrieveAll_downloaded`); paths differ since names do (`basename_pathJoin`); import scripts by comparison with the run without argument |
| C205 | `Evaluation/LabelsDouble.lean`: recognition of labels on floats with infinities and NaN; `argsort` is any permutation along which activations do not increase, NaN last | `argmax` through `argmin` of opposites; floats are mapped to rationals in their order with NaN lowest (`rank`), hence C49 applies; scores by C202, nearest examples by C199, C200 and C201 |
| C206 | `Evaluation/EntropyDouble.lean`: `entropy` on floats with infinities and NaN, additions in any order | errors of logarithms, products and sums are added up (`sum_total`); terms are not positive since the logarithm of doubles at most 1 is not; the upper bound is that of C36 |
| C207 | `Evaluation/EntropyDouble.lean`: `mutual_information`, `conditional_entropy` and `np.allclose`, with orders of additions for all entries, each row and each column | perturbation of `x log x` and of quotients by the errors of marginals; ranges from C37 and C38. Finding: products of marginals underflow, and the result is then infinite (`C207_underflow`) |
| C208 | `Window/Heap.lean`: windows, numpy arrays with views and lists at addresses; methods which move in place, allocate or share | each operation refines the one on values of `Window/Model.lean` for valid addresses (`Makes`, `Keeps`); validity is an invariant of programs (`C208_reach`); frames by induction over sequences of moves. Finding: repeated windows are moved several times, and `get_subwindow_at`, the constructor and arrays share |
| C209 | `Logger/Heap.lean`: logs and run dictionaries at addresses | the loop of merges in closed form (`mergeLoop_ok`), refinement of the model on values for states without shared runs (`Distinct`), which is an invariant of programs without merges (`C209_reach`). Finding: merged logs share runs, a failed merge keeps a part, and `exp_keys` of the other log misses keys stored later |
| C210 | `Window/Steps.lean`: `_arange`, `slider`, `concat_of_frames` and the constructor of array windows with `ZeroDivisionError` | the number of steps in closed form for each sign (`toApproxInt_neg`); positions of the times by order of fields. Finding: negative steps snap the last time to the border, and negative shifts make windows which all end at `t_end` |
| C211 | `KDE/Rounded.lean`: `get_bins_1d` with the rounding of each operation | error bounds of the step, grid points, cells (`bin_near`), common weight and shares (`share_near`), then induction on samples (`fold_near`) against the specification `linearBin` of C68. Finding: bins can be negative (`C211_negative`) |
| C212 | `KDE/Rounded.lean`: `kernelSizeR`, `gaussianSizes1R` | the rounded quotient of `np.arange` is within a half of `nb - 1` (`kernel_bounds`). Finding: the size depends on rounding (`C212_both`) |
| C213 | `Window/Nested.lean`: methods of `ConcatTimeWindow` in terms of the ones of its elements (`Ops`), tied for each number of levels (`nestOps`) | laws of elements with respect to their leaves (`Lawful`) hold for basic classes (`win_lawful`) and pass from elements to concatenations (`concat_lawful`), by the crop of one level (`Lawful.getSub`) against a relation on leaves (`LeafL`, `LeafR`) which is deterministic; induction on levels. Findings: `C213_null_duration`, `C213_reversed`, `C213_samples_error`, `C213_align_gap` |
| C214 | `KDE/Underflow.lean`: `gaussian1U`, `entropy1U`, `klDivergence1U`, `gaussian2U` with a parameter for `np.exp`, `nan` as `none`, and both convolutions with `nan` | squares of points of the kernel's grid are `(delta / 2)^2` times squares of integers of the parity of `nb - 1` (`offset_least`), thus a null sum (`kernelSumU_zero`, `kernelSumU2_zero`); otherwise as C106 and C107. Finding: `C214_default` (nan with the default, even, number of bins; a number with one more) |
| C215 | `Evaluation/Shapes.lean`: `compareGivenNbAny`, `compareThresholdAny` with arrays of one or two dimensions of any sizes, broadcasting as `stretch` | rows one by one (`rowsGivenNb_spec`, all errors are the same) and `rowGivenNb_iff`, which does not assume sizes; `C215_wide_labels` by C49 on the columns which both have |
| C216 | `Munkres/Shapes.lean`: `weightAny`, `minWeightAny`, `bruteForceAny`, with `multiply` which repeats axes of size 1 and indices from the end | as C32 for the sum; C30 for what `min_weight_perm` returns; the first permutation is the identity (`allPerms_head`) and with one row or column all have the same weight. Finding: `C216_one_row` |
| C217 | `Logger/Failures.lean`: `saveSteps` has the writes of `save`, with incomplete files, and its outcome | the load of the archive of a log over the document of another (`loadRuns_any`, `mixed_merge`) for any numbers of runs; other states by cases. Findings: `C217_mixture`, and `C217_outcome` (a value which cannot be written destroys the log saved before) |
| C218 | `NDArray/Measures.lean`: operations of numpy on arrays with their broadcasting (`bop`, `bcastShape`), sums along axes, and measures as sequences of these, as in the code | a relation between arrays and their parts for each pair of rows (`Rel`), for each row and a vector (`VRel`), or for each line along an axis (`LRel`, `PRel`), is preserved by each operation; measures follow by composition. `C218_real` and `C218_table` compare with the formulas of `Metrics/Model.lean` |
| C219 | `NDArray/Entropy.lean`: `swapaxes`, the merge of axes (`flattenFirst`) and sums along axes on arrays as in `NDArray/Model.lean` | exchanging two positions of indices is an involution between indices of both shapes, which gives marginals by a bijection of sums (`column_sums`); with two dimensions it refines the model of matrices of C38 (`C219_matrices`); sparseness by C35 on the lines. Finding: `C219_vector` (a vector raises TypeError, with any axis it has) |
| C220 | `Experiment/Model.lean`: `RunMode.other`, `randomSplitStr` (a ratio which is a string is repeated, read as an integer, and then divides) | from C88 on generators which raise at their first value. Finding: `single-run`, named by the comment of the constructor, always fails with ValueError |
| C221 | `Metrics/Shared.lean`: arrays are injective maps from indices to positions of a memory, which in-place divisions overwrite (`Function.extend`); integers with the division of each version of python | reads after a normalisation; weights stay weights. Findings: overlapping arrays give another divergence (witness with values 1, 1, 2), and counts are lost with python 2 |
| C222 | `KDE/Rounded2d.lean`: `get_bins_2d` with the rounding of each operation | relative errors (`Rel`) of the common weight, error of the share of each coordinate (`coord`) and of products (`term_near`), then induction on samples against the specification `linearBin2` of C69. Finding: bins can be negative (`C222_negative`) |
| C223 | `KDE/Model.lean` (`gaussian2`), `KDE/Rounded2d.lean` (`arangeR`, `kernelGrids2R`) | the window of `mode='same'` rewritten as a cut Gaussian of coordinates (`kernel_cut`); error bounds of all values of the grid of the kernel (`kernel_values`). Finding: estimates are displaced by a half step or one step |
| C224 | `Utils/Rounded.lean` (`randomSplitR`) | cut of C23 for any size and number which fit (`split_core`); relative errors of both roundings (`fits`); monotonicity of rounding at integers. Finding: floats `1./k` may lose a test set or raise |
| C225 | `Utils/Rounded.lean` (`filterContR`, `velocitiesR`, `delayedVelocitiesR`, `manualyNormalizeR`) | error bound of three roundings (`mean_near`); differences of doubles are multiples of the smallest double (`sub_ge`); monotonicity of rounding. Finding: constants and bounds of C26 are not kept by doubles |
| C226 | `Arrays/Effects.lean` (`normalizeFeatures`, `Sparse.eliminateZeros`, `Sparse.tocsr`) | values at a place before and after each step (`eliminate_dense`, `tocsr_at`, `columns_at`). Finding: integer data are not normalised in python 2 and fail in python 3 |
| C227 | `Features/Double.lean` (`softRow`, `softAssociate`, with `Flt` and `Tree`) | cases of the argument of the exponential (`arg_cases`), bounds of sums of weights. Finding: soft weights of a vector which is a centroid are those of hard quantisation, and all NaN for large alpha |
| C228 | `Geom/Double.lean` (`vectorNorm`, `unitVector`, with `Flt` and `Tree`) | the norm is the distance to zero of C199; the correctly rounded root of the rounded square of a double is this double (`sq_square`), from which the bound by 1. Finding: unit vectors of huge vectors are null, those of tiny vectors infinite |
| C229 | `Metrics/HoyerDouble.lean` (`norm1`, `norm2`, `hoyerSparseness`, with `Flt` and `Tree`) | relative errors of both norms (C228), of quotients and of their mean; the inequality of Cauchy and Schwarz for the exact value. Both norms of a line with one entry are the same double, so that its quotient is exactly 1. Finding: overflow of squares gives sparseness above 1 |
| C230 | `Utils/Integers.lean` (`IntTy.wrap`, arrays with a type of elements, `velocitiesA`, `delayedVelocitiesA`, `filterContA`, `manualyNormalizeI`) | an integer of the type congruent to the exact result is unique (`fits_eq`); differences from C25 and C26. Finding: constant columns of small integers change, e.g. 100 becomes 14 for `uint8` in python 2, and both paddings of `delayed_velocities` give different types |
| C231 | `Motion/Failures.lean` (`Files` with incomplete files, `DB.exportSteps`, `loadFiles`), `ObjectDB.saveMeta` | by cases on the number of steps; reading records of one database in the archive of another (`fetch_mixed`). Finding: an interrupted export silently mixes new labels with old data |
| C232 | `Sound/Loads.lean` (`DB.loadFromS` and its loops, with the state left by an exception) | same results as the model of C77 (`C232_outcome`); induction on tags, records and speakers with names of tags preserved by prefixes (`names_prefix`); the first repeated element of a list (`first_repeated`). Finding: a file which fails leaves a part of its content, and a second file changes the root of records loaded before |
| C233 | `NMF/PropsCalls.lean` (`Call`), on the model of C54 | an invariant on shapes (`Fixed`) preserved by any call, successful or not. Finding: a transform, even one which fails, pins the dictionary from which later fits start and their number of features |
| C234 | `Learner/PropsCalls.lean` (`Training`, `afterAll`, `Learner.firsts`), on the model of C51 | induction on the sequence of trainings; `firsts` is the learner with the first modalities only. Finding: `zip` hides missing matrices, so a training with too few succeeds and leaves empty dictionaries |
| C235 | `Motion/Heap.lean`: databases, arrays and lists of labels at addresses | refinement of the model on values for each method; addresses of records are only appended (`runAll_grows`), by induction on programs. Finding: an extended database shares its records with the other |
| C236 | `Motion/Model.lean`: `descriptionSafe`, `occuring`; `Motion/Export.lean`: `add` | cases on the kind of descriptions and the sign of indices; C85 for `extend` |
| C237 | `Experiment/Again.lean`: `runAgain`, `runAll`, `coefsAfter`, on the model of C88 | induction on the calls; C88 for each one, and `prepare` changes no run whatever its outcome (`keepsRuns_prepare`). Finding: the log of an object run twice gives wrong labels to samples of the first call (`C237_wrong_labels`) |
| C238 | `Learner/Double.lean`: the learner on the factorization with doubles of C197 | the stacked matrices entry by entry (induction on blocks), then C197 and C198 |
| C239 | `Experiment/CoefsDouble.lean`: `defaultCoef`, `setCoefs`, with the doubles of C197 | sums of numbers which are not negative are at least each of them, and lose or win at most a factor for each addition (`sum_lower`, `sum_upper`); C238 for training |
| C240 | `Experiment/RunDouble.lean`: `pick`, `preparedData`, `newLearner`, `oneRun`, with the doubles of C197 | selected lines keep bounds (`pick_within`); C239 for coefficients, C238 for training, C197 for coefficients of test samples |

### Code which is not modelled
Styles and colours of `plots.py`, drawing and command lines of `samples/`, what happens on the
network, MFCC computation, k-means,
SVD, FFT convolution in the KDE modules, the eigenvalue and singular value routines used by
`lib/transformations.py` (parameters with contracts), and its C extension. The storage of sparse matrices is
modelled for `nmf.py` (C191), where columns must be sorted without duplicates; elsewhere they are
matrices.

## Plan: property by property

* **C01** Approximate rounding of sample indices: `toApproxInt` over ℚ; case analysis on floor/ceil, translation by integers.
* **C02** Consistent arange: `arange` over ℚ; closed form of the list as a filter of an arithmetic progression; membership spec.
* **C03** Full sliding windows: `slider` on top of `arange`; every element characterised, maximality from the floor bound.
* **C04** Partial sliding windows cover the interval: same model, coverage proved by locating the index floor((t - t_start)/shift).
* **C05** Sub-window of a basic window: `BasicWin.getSub`; decision logic, exact error condition.
* **C06** Sub-window of an array window selects the right samples: `ArrayWin.getSub`; slice bounds characterised by inequalities on slot times; filter spec on indices.
* **C07** Sampled windows stay consistent: operations as a step relation; invariant by induction over the history.
* **C08** Lazy wav windows agree with loaded arrays: `WavWin.getSub` as copy+delay+stop; refinement to `ArrayWin.getSub` by integer translation of C01.
* **C09** Nested cropping composes: composition lemma from C01 translation.
* **C10** Concatenated windows must be consecutive: constructor returning `Except`; iff with a pairwise-consecutive spec.
* **C11** Aligning windows: `align` as a fold; induction on the list.
* **C12** Window lookup by time: `bisect_left` modelled as the real binary search; proved to be the first index with end >= t on sorted ends.
* **C13** Cropping a concatenation of sampled windows: refinement between crop-then-load and load-then-crop, induction on windows.
* **C14** Cropping a concatenation of labelled windows: same model for basic windows, spec by intersection.
* **C15** Frames cover the interval: `concatOfFrames`; from C04 plus constructor check C10.
* **C16** Array concatenation: fold of concatenation.
* **C17** Paired samples share their label: `associateSamples` with shuffle/enumeration oracles; membership spec.
* **C18** No sample is paired twice and pairing is maximal: nodup and counting spec, same model.
* **C19** Pairing requires the same number of labels: assertion branch of the same model.
* **C20** Grouping by value is a partition: `organizeByValues` as a fold over buckets; filter spec.
* **C21** Labels are renamed bijectively: names/inversion model; round trip.
* **C22** Frames are matched to window labels: loop over frames popping from buckets as state passing; multiset accounting invariant.
* **C23** Random splits partition the samples: `randomSplit` with arbitrary permutation; list slicing lemmas.
* **C24** Leave-one-out: direct list model.
* **C25** Delayed velocities: slices with Python negative-index semantics; row-wise spec.
* **C26** Circular velocities and continuity filter: list model, column sums and bounds.
* **C27** Value filtering and normalisation: order lemmas over ℚ.
* **C28** Nested list tools: nested lists as a depth-indexed type family; induction on depth.
* **C29** Optimal assignment on square matrices: full model of the Hungarian method (tree, labels, matching, loops); LP-duality optimality.
* **C30** Optimal assignment on rectangular matrices: padding and transposition reduced to C29.
* **C31** The assignment algorithm terminates without error: fuel bounds shown sufficient by invariants (alternating tree, counting).
* **C32** Brute force enumerates all permutations: `allPerms` model; completeness by induction; argmin fold.
* **C33** Reversing an injective function: fold of list updates with index errors.
* **C34** Generalised KL divergence: ℝ; scalar inequality from `log x <= x - 1`.
* **C35** Hoyer sparseness range: Cauchy-Schwarz and norm comparison.
* **C36** Entropy: Jensen / `log x <= x - 1`.
* **C37** Mutual information: Gibbs inequality.
* **C38** Conditional entropy: from C36/C37 decomposition.
* **C39** Cosine similarity: Cauchy-Schwarz.
* **C40** Frobenius distance: Minkowski via EuclideanSpace norm.
* **C41** Divergence wrappers: algebra.
* **C42** Sum normalisation never divides by zero: algebra on finite sums.
* **C43** Feature normalisation: dense and sparse agree: sparse matrix as list of triples vs dense; equality of results.
* **C44** Growing sparse matrix: row list model, invariant by induction over additions.
* **C45** Nearest neighbour classification: first-argmin model; spec with minimality.
* **C46** Recognition score: counting.
* **C47** Choice of examples: `index(l, start)` model; nth-occurrence spec.
* **C48** Confusion matrix: false of the code: numpy `conf[true, found] += 1` does not accumulate on repeated pairs. Proved: the matrix is the 0/1 indicator of the observed pairs, it is the count when no pair is repeated (`_partial`), and a witness where it is not the count.
* **C49** Label recognition given their number: argsort as any sorting permutation.
* **C50** Label recognition by threshold and by best activation: decision logic and counting.
* **C51** Modality blocks partition the dictionary: prefix sums of the dimensions; a stacked matrix is characterised by its blocks, uniquely. The range of a repeated name is that of its first occurrence (C51_repeated).
* **C52** Reconstruction is block-wise: the matrix product distributes over blocks; exceptions included for one modality.
* **C53** Training checks shapes: assertion loop model; then the model of NMF on the blocks.
* **C54** Non-negativity is preserved by NMF: invariant by induction over iterations.
* **C55** Transform does not change the dictionary: state passing model. Finding: `transform` stores the dictionary as initial one, so that a later `fit` starts from it and is not random any more (C55_fit_after_transform).
* **C56** Coefficient updates decrease the divergence: descent lemma for a row of coefficients by log t <= t - 1, then induction over iterations. The code normalises components to s/(s+1e-16): C56_nearly_normalised bounds what is lost. The learner transforms data with parts of components, whose sum is less than 1: C56_unnormalised is a case in which the divergence increases (C103 says what decreases then).
* **C57** Recorded errors decrease: loop invariant.
* **C58** Sparse and dense errors agree: finite sum identity.
* **C59** Rescaling keeps the reconstruction: matrix identity.
* **C60** Coefficient updates conserve mass: finite sum identity.
* **C61** Ignored options: model threads the options as the code does; independence theorem.
* **C62** Co-occurrence counts: `bincount` model; counting spec.
* **C63** HAC vector layout: lengths of concatenations and block equality.
* **C64** Iterative k-means reaches k: loop with oracle routines; termination measure.
* **C65** Vector quantisation histograms: argmin and exp weights.
* **C66** Stacking and unstacking examples: prefix sums and slices round trip.
* **C67** Velocity options of histogram features: model keeps the arguments; independence theorem.
* **C68** Linear binning conserves mass (1D): fold over samples; sums.
* **C69** Linear binning conserves mass (2D): fold over samples; sums.
* **C70** A run never overwrites a value: association list model of dictionaries; all branches.
* **C71** Log key bookkeeping: invariant by induction over operations.
* **C72** Saving and loading a log: key encoding with split on '_' over character lists; injectivity of the encoding, round trip. Finding: a file name ending in `.npz` breaks the round trip of arrays.
* **C73** Result keys survive saving: false of the code: `load` sets `exp_results`; proved that a loaded log never has result keys, with a witness.
* **C74** Crash while saving: false of the code: two files written in sequence. Proved: witness of a mixture, a failing crash point for every log, and the cases which are safe (`_partial`).
* **C75** Merging logs: fold over loggers.
* **C76** Tag ids are consistent: invariant by induction over operations.
* **C77** Sound database round trip: serialisation model; round trip by induction.
* **C78** Records only use known tags: false of the code by one: `t > len(tags)`. Proved: exact acceptance condition, witness, and the part which holds.
* **C79** Keyword co-occurrence counts: fold of increments; counting spec.
* **C80** Order on records: the claim on `>` is false of the code for distinct records with the same name. Proved: `<` is a strict order total on audio names, witness, and the part which holds.
* **C81** Parsing frames: false of the code for exactly four blocks. Proved: exact number of views, content for other numbers of blocks (`_partial`), consequence for four blocks.
* **C82** Frame histograms: prefix sums; average spec.
* **C83** Object database counts: fold with failures as oracle; invariant.
* **C84** Motion database round trip: round trip of ids through str; JSON key conversion. Outcome: holds for descriptions given by None, a list, or a dictionary with string keys; false for dictionaries with integer keys (`C84_int_keys_lost`): JSON turns them into strings.
* **C85** Extending a motion database: decision logic with errors as values.
* **C86** Loaders return aligned data and labels: state machine of the loader with its caches; what each call reads from files is an arbitrary argument of the call; invariant over sequences of calls.
* **C87** Examples are never used for training or testing: composition of the pairing and example-choice models; C87_total says exactly when prepare succeeds.
* **C88** Runs of an experiment: loop over a generator list with state passing (induction); the learner and the evaluation are arbitrary.
* **C89** Result keys are distinct (two modalities): injectivity of key formatting on strings; the evaluation is shown to be a sequence of stores, one for each key.
* **C90** Result keys are distinct (three modalities): injectivity of key formatting on strings, with the exact exceptions; same sequence of stores.
* **C91** Experiment parameters round trip: serialisation model.
* **C92** Quaternion algebra: identification with the quaternions of Mathlib.
* **C93** Quaternions to rotation matrices: field identities over ℝ; the action on vectors is compared with q v q⁻¹ of Mathlib.
* **C94** Joint angles are frame invariant: exact invariance under rotations and signs from the algebra (C92, C93), invariance under scaling above the threshold, meaning from C95 and C109.
* **C95** Euler angles represent the rotation: atan2 as `Complex.arg`; permutations of axes reduce the 24 conventions to two; near gimbal lock the error is bounded by 2 EPS using the cofactors of a rotation.
* **C96** Destination path checks and database download: decision logic over an abstract file system.
* **C97** Statistics of a sound database: failure of `str.join` on non-strings as a value; case analysis.
* **C98** Ratio of zero coefficients: counting argument over places; sparse matrices as lists of entries.
* **C99** Object files, names and order of features: model of the regular expression by leftmost search; uniqueness of the match; stack discipline of `lines.pop()`.
* **C100** Text export of a motion database: loop with an exception as structural recursion; induction on the records.
* **C101** Download of the acorns data set: injectivity of the formatting of names by parsing back; induction on the list of downloads.
* **C102** End of the NMF loop: the loop is a number of updates, one per recorded error (`loop_spec`).
* **C103** Objective of coefficient updates for any dictionary: descent lemma; convexity for optimality.
* **C104** From training to reconstruction: composition of C51–C54.
* **C105** Vector quantisation histogram matrix: what is left of a `map` object depends on the version of Python; prefix sums and sums of histograms.
* **C106** Gaussian density estimates (1D): sums and first moments of convolutions; log z <= z - 1; a witness for the sign.
* **C107** Gaussian density estimates (2D): sums over moving windows.
* **C108** Weights of modalities: algebra on sums of rows.
* **C109** Meaning of the names of axes: conjugation of rotations about axes by permutations, a decidable check of the table of names.
* **C110** Quaternions of Euler angles: product of three quaternions of axes, then C93 and C109.
* **C111** Quaternions of rotation matrices: each rotation has a unit quaternion (from C95 with two conventions), then the four branches.
* **C112** Angle arrays depend on postures only: C94 for each sample, loops by induction.
* **C113** Speakers imported from VCTK: loop invariants, sorted lists without duplicates.
* **C114** Utterances imported from VCTK: relational specification of names in paths; naming convention by lemmas on splitting.
* **C115** Information on speakers: every line is a sequence of words and white space; induction on it. The lines of the file are given by a relation (`IsLines`) which determines them.
* **C116** Imports of VCTK which fail: case analysis and induction on speakers.
* **C117** Import of Acorns: XML documents are trees; loop invariant, tags keep their meaning when others are added.
* **C118** Years and speakers of Acorns: computation on ten names, case analysis on years.
* **C119** Loading the first choreography database: case analysis.
* **C120** Configuration values: lemmas on dictionaries.
* **C121** Description files of corpora: composition of C113, C117 and C77.
* **C122** Combinations of modalities in plots: membership by simp, counting, uniqueness of sublists.
* **C123** Plots read results which experiments store: composition with C89 and C90.
* **C124** Colours of modalities: lookup lemmas on dictionaries, distinct values.
* **C125** Curves with deviations: sums over lists; nonnegative terms.
* **C126** Construction of score plots: induction on windows; dictionaries of options.
* **C127** What a score plot shows: composition with C14; loops as mapM; relation between visible parts and records.
* **C128** Score plots beyond the records: case analysis on the checks of times.
* **C129** Moving in interactive plots: invariant by induction on the events.
* **C130** Plots of one sentence: composition of C126 and C127.
* **C131** Histograms of words by label: invariant of the grouping loop; counting.
* **C132** Information of words on labels: equality of the table with the joint law, then C37.
* **C133** Information of coefficients on labels: counts of bins as proportions, composition with C20 and C37.
* **C134** Order of the columns of information matrices: composition with C30, permutation by counting.
* **C135** Labels computed again from the log: composition with C87 and C21; keys of the log by invariant (C88).
* **C136** Confusion matrix of the sliding script: invariant of the loop, double counting.
* **C137** Test samples of the sliding script: composition with C135; positions among the others; concrete witness for the defect.
* **C138** Jobs of the launcher: injectivity of the formatted names.
* **C139** Results which the launcher collects: composition with C75.
* **C140** Jobs do not overwrite each other's logs: induction on the saves, composition with C72.
* **C141** Sliding windows over files of sound: composition of C03, C11 and C13; induction on files.
* **C142** Translation matrices: action on homogeneous coordinates of all points (`Moves`), uniqueness of the matrix.
* **C143** Reflections: action on all points, geometric specification by middle and normal.
* **C144** Rotations about an axis: equality of the action with Rodrigues' formula, from which the geometric specification and the composition follow.
* **C145** Scalings: action on all points.
* **C146** Projections: action on all points, with division by the weight for perspective.
* **C147** Clip matrices: action on all points; inequalities.
* **C148** Shears: action on all points.
* **C149** Random rotations: polar coordinates of both pairs of coordinates for surjectivity; composition with C93 and C111.
* **C150** Spherical interpolation of quaternions: trigonometric identities on the angle of the ends.
* **C151** Trackball: invariant on the state kept by each call, induction on the calls; composition with C93 and C150. Findings: axis (0, 0, -1) gives NaN; `setaxes()` without arguments does not remove the axes and makes the next constrained press fail.
* **C153** Products and comparison of matrices: induction on the list; definition of the tolerance.
* **C154** Crystallographic cells: trigonometric identities.
* **C152** Decomposition of matrices: Gram-Schmidt on the rows; composition with the Euler angles of C95 and the rotations of C144. Finding: perspective entries of at most `_EPS` are dropped.
* **C155** Superimposition is the best one: the sum of squares is a constant minus the gain `sum R_ab H_ab`; bound by the singular values (trace of a rotation at least -1 in the indirect case) and by the greatest eigenvalue of Horn's matrix (Mathlib's spectral theorem; every rotation comes from a quaternion). `svd` and `eig` are parameters with contracts. Finding: the scale is the ratio of deviations, not the best factor.
* **C156** Superimposition of similar sets: from C155, the lowest sum being zero.
* **C157** Mirror found from its matrix: `numpy.linalg.eig` is a parameter with the contract `IsEigC` (columns are eigenvectors of norm one, real for real eigenvalues, every real eigenvalue present); a mirror is an involution, hence its eigenvalues.
* **C158** Rotation found from its matrix: eigenvalues of a rotation are one and two of real part the cosine; the sine from the entries; every rotation of given axis is `aboutAxis`. Limit: cosines strictly between 1 - 1e-8 and 1, where the tolerance lets complex eigenvalues in.
* **C159** Scaling found from its matrix: matrices with two eigenvalues (`A^2 = (a+b)A - ab`).
* **C160** Projection found from its matrix: parallel projections are idempotent; perspective ones are a multiple of the identity minus a matrix of rank one. Findings: depth one is mistaken for a parallel projection (`ValueError`); with pseudo projections the order of the eigenvalues decides whether the point is on the plane; a plane through the origin gives NaN.
* **C161** Shear found from its matrix: all eigenvalues are one, the eigenvectors are orthogonal to the normal, which is the longest of their cross products.
* **C162** Entropy of density estimates: trapezoids as a sum (`integral`); upper bound from concavity (`log t ≤ t - 1`), invariances from the linear binning, which depends only on relative frequencies. Finding: `kde_entropy_gaussian_2d` always raises `TypeError`.
* **C163** Divergence in two dimensions: both estimates on the bounds of all samples; double sum. Findings: the value is minus the divergence; `delta_x` and `delta_y` are exchanged, without effect.
* **C164** Smoothed histograms of angles and velocities: `db_to_binned_hist_matrix` with the density estimate of C107 in place of the abstract one of C67.
* **C165** Checks of arrays: arrays with flags for the identity of the object and of its memory; values are finite or not; `sum` is any function which is not finite as soon as a value is not. Finding: `copy=True` has no effect on vectors, as the array compared with the argument is a view.
* **C166** Printed results: a print is a line added before an error, if any; `str.center` as in CPython; the table has lines specified by `TableLine` from the raw scores of the log. Findings: the table of `ThreeModalitiesExperiment` is never printed, as a tuple is given to a format for numbers; the second line of the other table is one character short.
* **C167** Downloads: one file system of typed contents for all datasets; paths as strings with `os.path.join`, `dirname`, `basename`. Finding: `download_dbs` always ends by TypeError as it forgets the argument `dest` of the last download.
* **C168** Saved objects: the dictionary of matrices is written in an arbitrary order; `savemat` fails at the first missing matrix. Finding: the test of `parse_objects` for an existing database is made on a name without extension, so that it is always built again.
* **C169** Features of ACORNS: loops over years, speakers, records; names of feature files are all different (C101), so that each file keeps what was written. Findings: `check_speaker` accepts one speaker too many and raises TypeError instead of ValueError.
* **C170** Features of choreo2: sequence of effects on the file system. Finding: `np.savez` adds an extension, the guard against replacing a file ignores it.
* **C171** Codebooks and scripts which parse corpora: composition of the imports (C113, C117), of the round trip through JSON (C121) and of the file system of C167. Finding: one utterance without sound makes the construction of the VCTK codebooks impossible.
* **C172** Chart junk: axes as records of spines, ticks and limits; loops over spines by induction. Finding: `ticklabels` is compared, as a set, with 0, so any value raises `TypeError` and labels are never removed.
* **C173** Plot helpers: keyword arguments as dictionaries, axes as a map of which one entry changes. Finding: `legend(ax=None, fig=f)` uses the current axes, not `f`.
* **C174** XML of records: a tree of elements; specification by the children with a given name, injectivity from the absence of double tags.
* **C175** Sample experiments: the loaders of C86 composed with the experiment of C87, C88 and the table of C166; totality by composition, for both orders of the dictionary of loaders.
* **C176** Equality of loggers: comparison of dictionaries with a value comparison which may raise; specification by `dictGet?` of each key. Finding: after a save and load the test for equality is False as soon as there is a result, and raises ValueError for arrays.
* **C177** Files of parameters: the tree of JSON values, round trip by induction on loaders; `prepare` as a fold over jobs with distinct files.
* **C178/C179** Figures: panels, boxes, curves and legends as data; specifications by names of scores (`pairKey`, `combKey`), by pairs of different modalities (`Directed`), by means and variances. Proved by induction over logs. Finding: the argument `metric` of the curves has no effect.
* **C180** The action plot, from files to figures: `RunScores` says that the values are the scores of all runs of the selected experiments, once each. Composition of C139, C178, C179.
* **C181** Actions, saved files, watching a pool: the pool is any sequence of readings, three by turn; the exact number of turns is proved by induction.
* **C182** From prepared jobs to figures: each job is `run` of C88 with the evaluation of its script; the keys and values which an evaluation adds are followed through its loops (`AddsP`), then C177, C140 and C180 are composed. Specification: `Drawn` over `RunScores` of the logs in memory.
* **C183** Recognition along sentences: `slidingScript` is `run` of C88 then the evaluation of the script on the log which it leaves. C141 gives the windows; the keys of a single run (C182) show that both `store` calls succeed; C72 gives the saved file. Specification: `SlidAlong`, `Shown`, an explicit matrix of distances.
* **C184** Exports of motion databases in directories: `exportTo` and `loadFrom` on a disk with directories. Paths are composed by `os.path.join` and `dirname`; specification by explicit paths (`under`). Fault found: a name such as `sub/b` is exported to `dest/sub/b.json` and `dest/sub/b.npz`, but loading looks for `dest/sub/sub/b.npz` (`C184_npz_subdirectory`).
* **C185** Parameters of MFCC: keyword arguments are dictionaries which go through `complete_mfcc_params`, `mfcc` and `melspectrogram`; names given twice raise TypeError. Widths of streams are followed from sounds to codebooks and back to features. Specification: `Count`, `Wide`, an explicit product.
* **C186** What is shown of the recognition along sentences: `slidingView` builds the windows again from the log. `slidingView_ok` gives its values from the contents of the log; `plot_core` gets these contents from C183 and C72, the windows being the same as those of the evaluation (`slides_unique`). Specification: `OneAfterAnother`, `SlidAlong`, explicit similarities.
* **C187** Annotations and files: `Canvas` has the state of annotations; `plotSlidingScript` runs on a disk of directories, texts and figures. Induction on annotations; the figures are a fold of `dictSet` with distinct keys.
* **C188** Norms along an axis: arrays of any number of dimensions in the order of C, `numpy.sum` along an axis, `expand_dims` and broadcasting are modelled; statements are about values at indices (`Valid`, `value`, `lineNorm`). The layout is related to indices by induction on shapes.
* **C189** Imports of a module over another: the global names are a dictionary; induction on the public names of the module.
* **C190** Logs saved at the same time: a state of the disk is a list of writes with their logs, such that the writes of each log are the first ones of its save; induction on this list. Composition with C72 and C182 (`figures_of_logs`) for the jobs of the launcher.
* **C191** Factorization of stored sparse matrices: rows of entries; a refinement of the model of `nmf.py` on matrices, step by step (`_Q`, `error`, `_update`, the loop by induction, `fit_transform`). Witnesses show that the canonical format is needed.
* **C192** Sampled windows with rounded operations: a second model of `window.py`, where each operation is rounded by a parameter `fl`; bounds on the errors, then case analysis on floor and ceiling as in C01; induction on the list of crops. Rounding to doubles is defined and shown to meet the contract.
* **C193** Concatenated files with rounded operations: induction on the list of files; no double is between the end of a file and the start of the next one (spacing of doubles); `bisect_left` as in C12. Finding: a valid range which ends at the end of its file may raise `TimeOutOfBound` (`C193_end`).
* **C194** Sliding windows and frames with rounded operations: number of steps up to the tolerance, decisions of `_snap_above` away from the edge, composition with C193. Findings: the last sliding window over files may raise `TimeOutOfBound` (`C194_last`); frames may not be consecutive (`C194_edge`).
