import json
P=[]
def p(id,title,statement,quant,why,anchors):
    P.append(dict(id=id,title=title,statement=statement,quantifier=quant,why_tests_cant=why,anchors=anchors))
W="multimodal/lib/window.py"
p("C01","Approximate rounding of sample indices",
 "Rounding a real index with tolerance tol returns an adjacent integer: the ceiling when the value is within tol below an integer, the floor when it is within tol above one, and otherwise the ceiling if rounding up was requested and the floor if not. An exact integer is a fixed point for every positive tolerance, and the operation commutes with integer translation.",
 "every rational value, every tolerance, both rounding directions",
 "tests sample a few values near integers; the tolerance bands around every integer form a continuum",
 [W+": _to_approx_int"])
p("C02","Consistent arange",
 "The helper that enumerates regularly spaced times from left to right returns the points left, left+step, left+2*step, ... strictly below right, followed (when requested) by the right border exactly when the step divides the interval up to the tolerance. No returned point exceeds right, and when the border is excluded right is never returned.",
 "all left/right bounds (in any order), all positive tolerances, all steps at least twice the tolerance, both inclusion modes",
 "whether the border is returned depends on an exact divisibility up to tolerance for arbitrary bounds; literal cases only probe isolated points",
 [W+": _arange", W+": _snap_above"])
p("C03","Full sliding windows",
 "slider(t_start, t_end, width, shift) without partial windows returns windows that all have exactly the requested width, start at t_start + i*shift for i = 0, 1, ..., lie inside [t_start, t_end], and no further full window would fit (up to the tolerance).",
 "all intervals, widths, shifts at least twice the tolerance",
 "off-by-one window counts appear only for specific ratios of length and shift, which form an infinite family",
 [W+": slider"])
p("C04","Partial sliding windows cover the interval",
 "slider(..., partial=True) with shift <= width returns windows whose union is exactly [t_start, t_end]: every time of the interval lies in some returned window, the windows start at multiples of shift, none sticks out of the interval and no window is empty.",
 "all non-empty intervals longer than the tolerance, all widths and positive shifts with shift <= width",
 "coverage quantifies over every real time in the interval",
 [W+": slider"])
p("C05","Sub-window of a basic window",
 "BasicTimeWindow.get_subwindow(a, b) raises TimeOutOfBound exactly when a or b lies outside the window; otherwise it returns a window with the same object spanning [a, b] (empty and located at a if b <= a) and leaves the original unchanged.",
 "every window and every pair of times",
 "bounds and reversed intervals range over all pairs of reals",
 [W+": BasicTimeWindow.get_subwindow", W+": TimeWindow.check_time"])
p("C06","Sub-window of an array window selects the right samples",
 "ArrayTimeWindow.get_subwindow(a, b) returns exactly those samples of the array whose time slot [start+i/rate, start+(i+1)/rate] lies in [a, b] up to the time tolerance, in order, and the returned window starts at the start time of the first such slot. It raises TimeOutOfBound exactly when a or b is outside the window.",
 "every array, start time, rate below 1/(2*TOL), and pair of times",
 "sample selection must be right for every position of a and b relative to the sampling grid",
 [W+": ArrayTimeWindow.get_subwindow", W+": SampledTimeWindow._get_index_after", W+": SampledTimeWindow._get_index_before"])
p("C07","Sampled windows stay consistent",
 "In every array or wav window obtained by construction, move, copy or get_subwindow, in any order and number, end - start equals n_samples / rate, the selected samples are a contiguous range of the original data, and all reference times returned by get_times lie strictly inside the window and are regularly spaced by 1/rate.",
 "every sequence of operations on every window",
 "an invariant over arbitrarily long operation histories",
 [W+": SampledTimeWindow", W+": ArrayTimeWindow", W+": WavFileTimeWindow", W+": TimeWindow.move", W+": SampledTimeWindow.get_times"])
p("C08","Lazy wav windows agree with loaded arrays",
 "Cropping a wav-file window and then loading it gives the same array window as loading it first and then cropping; the two differ only when the end time precedes the (rounded) start time, in which case the array version returns an empty window and the wav version raises TimeOutOfBound.",
 "every file content, window and pair of times",
 "a refinement between two implementations over all inputs",
 [W+": WavFileTimeWindow.get_subwindow", W+": WavFileTimeWindow.to_array_window", W+": ArrayTimeWindow.get_subwindow"])
p("C09","Nested cropping composes",
 "Taking a sub-window of a sub-window of an array window equals taking the inner range directly from the original window, whenever the inner times lie inside the intermediate window.",
 "every array window and all nested pairs of ranges",
 "composition of tolerance-based rounding over all reals",
 [W+": ArrayTimeWindow.get_subwindow"])
p("C10","Concatenated windows must be consecutive",
 "ConcatTimeWindow(windows) raises ValueError exactly when the list is empty or some window does not start within the tolerance of the end of its predecessor; otherwise its start is the first start and its end the last end.",
 "every list of windows",
 "the check must detect a single gap or overlap at any position in a list of any length",
 [W+": ConcatTimeWindow.__init__"])
p("C11","Aligning windows",
 "ConcatTimeWindow.align(windows, start) keeps order, durations and contents, makes the first window start at start (default: its own start) and each next one start exactly at the end of its predecessor, so that building a ConcatTimeWindow from the result succeeds and its duration is the sum of the durations.",
 "every non-empty list of windows and every start time",
 "relation over lists of arbitrary length",
 [W+": ConcatTimeWindow.align", W+": concat_from_list_of_wavs"])
p("C12","Window lookup by time",
 "For aligned windows, get_subwindow_at(t) raises TimeOutOfBound exactly when t is outside the whole range and otherwise returns the first window whose end is not before t; that window contains t. A time on a boundary between two windows is attributed to the earlier one.",
 "every list of aligned windows and every time",
 "bisection must be right for every list and time, including boundaries and empty windows",
 [W+": ConcatTimeWindow.get_subwindow_at", W+": ConcatTimeWindow._get_file_index_from_time"])
p("C13","Cropping a concatenation of sampled windows",
 "For exactly aligned sampled windows with a common rate, cropping the concatenation to [a, b] and loading it gives the same samples, start and rate as loading the concatenation and cropping the resulting array window to [a, b]; the loaded window starts and ends with the cropped concatenation.",
 "every list of array/wav windows and every a <= b in range for which at least the rounded start does not exceed b",
 "the two paths round in different windows; equality is needed for every boundary position",
 [W+": ConcatTimeWindow.get_subwindow", W+": ConcatTimeWindow.to_array_window", W+": ArrayTimeWindow.concatenate"])
p("C14","Cropping a concatenation of labelled windows",
 "For exactly aligned basic windows and a <= b in range, get_subwindow(a, b) succeeds, spans exactly [a, b], is consecutive, and every part is the intersection of an original window with [a, b] carrying the same object.",
 "every list of aligned labelled windows and all a <= b in range",
 "universally quantified over lists and times",
 [W+": ConcatTimeWindow.get_subwindow", W+": BasicTimeWindow.get_subwindow"])
p("C15","Frames cover the interval",
 "concat_of_frames(t_start, t_end, rate) returns consecutive frames starting at t_start and ending exactly at t_end, all of duration 1/rate except possibly the last one, which is not longer than 1/rate plus the tolerance; it raises ValueError when t_end - t_start is below the tolerance.",
 "all intervals and all rates below 1/(2*TOL)",
 "the last-frame logic depends on divisibility up to tolerance for arbitrary reals",
 [W+": concat_of_frames", W+": slider"])
p("C16","Array concatenation",
 "ArrayTimeWindow.concatenate raises ValueError when rates differ, and otherwise returns the concatenation of the arrays in order, starting at the first start; saving the concatenation of a list of wav files therefore writes the samples of all files in order.",
 "every non-empty list of array windows / wav files",
 "lists of arbitrary length and content",
 [W+": ArrayTimeWindow.concatenate", W+": concat_from_list_of_wavs", W+": save_wav"])
PA="multimodal/pairing.py"
p("C17","Paired samples share their label",
 "Every tuple of sample indices returned by associate_samples contains one valid index per modality; the sample of modality m in the tuple carries the m-th name paired with the label returned at the same position, so two tuples have equal labels in one modality iff they have equal labels in every modality.",
 "every list of label sequences, every iteration order of sets, every outcome of the random shuffles",
 "random shuffles: all schedules of random outcomes must be covered",
 [PA+": associate_samples"])
p("C18","No sample is paired twice and pairing is maximal",
 "In the result of associate_samples no sample of a modality is used twice, and the number of tuples for each label is the minimum over modalities of the number of samples with that label.",
 "every input and every outcome of the shuffles",
 "universally quantified over shuffles and label multiplicities",
 [PA+": associate_samples", PA+": associate", PA+": organize_by_values"])
p("C19","Pairing requires the same number of labels",
 "associate_samples fails with an assertion error when two modalities have different numbers of distinct labels, and succeeds otherwise (for at least one modality); the result's label list has the same length as the list of tuples.",
 "every input and every outcome of the shuffles",
 "error behaviour over all inputs",
 [PA+": associate_samples"])
p("C20","Grouping by value is a partition",
 "organize_by_values(l, n) puts in bucket v, in increasing order, exactly the positions (or given indices) whose value is v; negative values count from the end; it raises IndexError exactly when some value is below -n or not below n.",
 "every list of values, every n, with and without explicit indices",
 "all lists",
 [PA+": organize_by_values"])
p("C21","Labels are renamed bijectively",
 "named_labels_to_range returns the distinct labels without repetition and, for each sample, the position of its label in that list, so names[index] gives back the original label.",
 "every label list and every order of the name set",
 "order of set iteration and shuffling are arbitrary",
 [PA+": named_labels_to_range"])
p("C22","Frames are matched to window labels",
 "associate_to_window returns frames covering exactly the time range of the labelled window; each frame holds a frame index whose label equals the label of the window returned by get_subwindow_at at the frame's start, and no frame index entry is used twice. If for some label there are fewer frame entries than frames that need it, ValueError is raised. It raises IndexError when a frame label is not below the number of distinct frame labels (negative ones count from the end), and ValueError for time ranges below the tolerance.",
 "every aligned labelled window whose labels are not negative, all frame labels from 0 on without gap, every rate up to 1/(2*TOL) and shuffle outcome",
 "random shuffles and arbitrary label/time layouts",
 [PA+": associate_to_window"])
U="multimodal/lib/utils.py"
p("C23","Random splits partition the samples",
 "random_split(n, ratio) yields floor(1/ratio) pairs; in each, train and test are disjoint, together contain every index of range(n) exactly once, and test has floor(ratio*n) elements; the test sets of different pairs are disjoint. If floor(ratio*n) = 0 (and ratio > 0) it raises ValueError.",
 "every n, every ratio in (0,1], every shuffle",
 "every permutation drawn by the random generator",
 [U+": random_split"])
p("C24","Leave-one-out",
 "leave_one_out(n) yields n pairs; the i-th one tests on exactly i and trains on all other indices in increasing order.",
 "every n", "all n", [U+": leave_one_out"])
p("C25","Delayed velocities",
 "delayed_velocities(delay, positions) has the shape of its input and its i-th row is positions[i] - positions[i-delay], where rows before the start are taken circularly or as zeros depending on padding; delays larger than the number of rows act as the number of rows; other paddings raise ValueError; delay 0 with zero padding fails for two or more rows.",
 "every array, every delay, every padding name",
 "boundary cases delay = 0, = n, > n for all n",
 [U+": delayed_velocities"])
p("C26","Circular velocities and continuity filter",
 "velocities returns rows positions[i+1] - positions[i] (cyclically), so each column sums to zero; filter_cont averages each row with its two neighbours (borders repeated), so it preserves bounds on each column and constant columns.",
 "every non-empty array", "all arrays and all bounds", [U+": velocities", U+": filter_cont"])
p("C27","Value filtering and normalisation",
 "filter_bound(x, inf, sup) with inf <= sup always lies in [inf, sup], leaves values already inside unchanged, is monotone and idempotent; manualy_normalize maps [low, up] into [0, 1], sends low to 0 and up to 1 when low < up, and never divides by zero.",
 "every value and bounds", "all reals", [U+": filter_bound", U+": manualy_normalize"])
p("C28","Nested list tools",
 "flatten(nested, level) enumerates in order the elements found at the given depth; distribute(x, values, level) replaces each element e at depth level by the list [e+[v] for v in values], so flattening one level deeper enumerates every combination in order; meta_map(n, f) applies f exactly to the elements at depth n.",
 "every nested list of a given depth", "all depths and shapes", [U+": flatten", U+": distribute", U+": meta_map"])
M="multimodal/lib/munkres.py"
p("C29","Optimal assignment on square matrices",
 "For a non-empty square matrix w, min_weight_perm(w) returns a permutation s of the columns such that sum w[i, s[i]] is at most sum w[i, p[i]] for every permutation p.",
 "every square matrix of exact (rational) weights and every size",
 "optimality compares against all n! permutations for all matrices",
 [M+": min_weight_perm", M+": _min_weight_perm_square", M+": BipartiteGraph.max_weight_matching", M+": AlternateTree.find_augmenting_path"])
p("C30","Optimal assignment on rectangular matrices",
 "With fewer rows than columns, min_weight_perm returns distinct columns, one per row, of minimal total weight among all injective choices; with more rows than columns each column is matched to exactly one row, the other rows get None, and the total weight is minimal among all such choices.",
 "every rectangular matrix of exact weights",
 "compares against all injections for all matrices",
 [M+": min_weight_perm", M+": reverse_function"])
p("C31","The assignment algorithm terminates without error",
 "max_weight_matching terminates on every non-empty square matrix: each search for an augmenting path ends after at most n explored columns and n label updates, the minimum over the slack sub-matrix is never taken over an empty set, and the augmentation loop follows a finite path to the root.",
 "every square matrix", "termination of nested while loops for all inputs",
 [M+": BipartiteGraph.max_weight_matching", M+": AlternateTree.find_augmenting_path", M+": BipartiteGraph.augment_matching"])
p("C32","Brute force enumerates all permutations",
 "all_perms(l) yields every permutation of l, each one exactly once when the elements are distinct, and min_weight_perm_brute_force(w) returns a permutation of minimal weight; hence it has the same weight as min_weight_perm(w), and min_weight(w) is that minimum.",
 "every list / every square matrix", "n! cases for every n",
 [M+": all_perms", M+": min_weight_perm_brute_force", M+": min_weight", M+": weight"])
p("C33","Reversing an injective function",
 "reverse_function(s, size) with s injective and below size returns the list r of length size with r[s[i]] = i and None elsewhere; it raises IndexError when some value is not below size. Called without size it fails for every list of naturals, in spite of its documentation.",
 "every list of indices and every size", "all injections; default-argument failure for all inputs",
 [M+": reverse_function"])
ME="multimodal/lib/metrics.py"
p("C34","Generalised KL divergence",
 "For non-negative x, y and the regularisation eps > 0, generalized_KL(x, x) = 0 and generalized_KL(x, y) >= -eps per entry; with eps = 0 and positive x and y it is non-negative and vanishes only for x = y. With eps > 0 it can be strictly negative.",
 "all non-negative vectors of every length", "an inequality over all real vectors", [ME+": generalized_KL"])
p("C35","Hoyer sparseness range",
 "hoyer_sparseness of any real matrix with at least two columns lies in [0, 1].",
 "all real matrices with n >= 2 columns and at least one row, any eps > 0", "an inequality over all real matrices", [ME+": hoyer_sparseness"])
p("C36","Entropy",
 "entropy of a probability vector is non-negative, at most log n, zero exactly for a point mass, and unchanged by permuting the entries.",
 "all probability vectors of every length", "inequalities over all real vectors", [ME+": entropy"])
p("C37","Mutual information",
 "mutual_information of a joint histogram is non-negative, symmetric under transposition, equal to H(X)+H(Y)-H(X,Y), and zero when the histogram is the product of its marginals.",
 "all joint probability matrices of every size", "inequalities over all real matrices", [ME+": mutual_information"])
p("C38","Conditional entropy",
 "conditional_entropy(histo, axis=0) of a joint histogram equals H(X,Y) - H(X) with X the row variable; it is between 0 and H(Y), and H(Y) - H(Y|X) is the mutual information.",
 "all joint probability matrices", "inequalities over all real matrices", [ME+": conditional_entropy"])
p("C39","Cosine similarity",
 "cosine_similarity lies in [-1, 1], is symmetric, is 0 when one argument is zero, is 1 for positive multiples of a non-zero vector and is unchanged when an argument is multiplied by a positive number; cosine_diff is its opposite.",
 "all real vectors of every length", "inequalities over all real vectors", [ME+": cosine_similarity", ME+": cosine_diff"])
p("C40","Frobenius distance",
 "frobenius(a, b) is non-negative, symmetric, zero exactly when a = b and satisfies the triangle inequality.",
 "all real vectors of every length", "inequalities over all real vectors", [ME+": frobenius"])
p("C41","Divergence wrappers",
 "kl_div ignores its eps argument; rev_kl_div(a, b) = kl_div(b, a); sym_kl_div is symmetric; with normalize the result only depends on the directions of a and b (for positive sums), and in the three divergences the arrays of the caller are overwritten by proportional ones of sum 1; without it they are unchanged.",
 "all vectors and all eps", "all inputs", [ME+": kl_div", ME+": rev_kl_div", ME+": sym_kl_div"])
A="multimodal/lib/array_utils.py"
p("C42","Sum normalisation never divides by zero",
 "normalize_sum of a non-negative array along an axis is non-negative; each normalised slice with sum s has sum s/(s+eps), thus below 1 and within eps/s of 1; zero slices stay zero; an axis outside the array raises ValueError.",
 "all non-negative arrays of any dimension", "all inputs, including zero rows", [A+": normalize_sum"])
p("C43","Feature normalisation: dense and sparse agree",
 "normalize_features keeps exactly the columns with non-zero sum, in order, and each kept column sums to 1; the result on a sparse representation equals the result on the dense matrix, whatever explicit zeros or repeated entries are stored.",
 "all matrices, all sparse representations of them", "equivalence between two code paths on all inputs", [A+": normalize_features"])
p("C44","Growing sparse matrix",
 "After any sequence of add_row calls the growing matrix has one row per call, as many columns as the longest row, and its entry (i, j) is row_i[j] if j is inside row i and 0 otherwise.",
 "every sequence of rows of any lengths", "arbitrary operation histories", [A+": GrowingLILMatrix.add_row"])
E="multimodal/evaluation.py"
p("C45","Nearest neighbour classification",
 "classify_NN returns for each tested row the label of an example at minimal measured distance (the first such example); if the closest examples all have the true label, the label found is the true one.",
 "all data, labels and measures", "all inputs including ties", [E+": classify_NN", E+": dists_to_found_labels", E+": all_distances"])
p("C46","Recognition score",
 "found_labels_to_score is the proportion of positions where found and true labels agree, hence between 0 and 1, 1 iff all agree and 0 iff none does; evaluate_NN_label equals the score of the labels found by classify_NN.",
 "all label lists of equal non-zero length", "all inputs", [E+": found_labels_to_score", E+": evaluate_NN_label", E+": scores_from_dists"])
p("C47","Choice of examples",
 "chose_examples(labels, label_set, number) returns, for each label of the set in order, the positions of its first `number` occurrences; it raises ValueError exactly when some label of the set has fewer occurrences. Returned positions are distinct when the set has no repetition.",
 "all label lists, sets and numbers", "all inputs", [E+": chose_examples"])
p("C48","Confusion matrix",
 "found_labels_to_confusion(true, found, n)[i, j] is the number of positions where the true label is i and the found label is j.",
 "all label lists", "all inputs with repeated pairs", [E+": found_labels_to_confusion"])
p("C49","Label recognition given their number",
 "compare_labels_given_nb returns True on a row exactly when the highest-scoring labels, as many as there are true ones, are the true labels; in particular if every true label scores strictly above every false one the row is recognised whatever the sorting order of ties, and if some false label scores strictly above a true one it is not.",
 "all score vectors, all binary label vectors, all valid sort orders", "ties are ordered arbitrarily by argsort", [E+": compare_labels_given_nb"])
p("C50","Label recognition by threshold and by best activation",
 "compare_labels_threshold recognises a row iff exactly the true labels score at least the threshold; evaluate_label_reco is the proportion of rows whose first maximal activation is at the true label and fails with an assertion error when the number of labels differs from the number of rows.",
 "all score matrices and labels", "all inputs", [E+": compare_labels_threshold", E+": evaluate_label_reco"])
L="multimodal/learner.py"
p("C51","Modality blocks partition the dictionary",
 "For distinct modality names, the column ranges of the modalities are disjoint, consecutive and cover all columns; stacking the dictionaries of all modalities in order gives back the whole dictionary.",
 "all lists of modalities and dimensions, all dictionaries", "all dimension lists", [L+": MultimodalLearner.get_axis_range", L+": MultimodalLearner.get_dico", L+": MultimodalLearner.get_stacked_dicos"])
p("C52","Reconstruction is block-wise",
 "reconstruct_modalities(mods, z) is the horizontal concatenation of reconstruct_modality(m, z), and modality_to_modality equals reconstruct_modality applied to reconstruct_internal; if the internal coefficients reproduce the stacked training data exactly then reconstruct_modality(m) is the data of modality m multiplied by its coefficient.",
 "all dictionaries, coefficients and internal representations", "matrix identities for all shapes and values", [L+": MultimodalLearner.reconstruct_modality", L+": MultimodalLearner.reconstruct_modalities", L+": MultimodalLearner.modality_to_modality"])
p("C53","Training checks shapes",
 "train raises an assertion error when some data matrix has not the declared dimension or not the number of rows of the first one; when it succeeds with one data matrix for each modality the learnt dictionary is fitted on the horizontally stacked scaled data with sum(dim) columns.",
 "all data matrices and dimensions", "all shapes", [L+": MultimodalLearner.train", L+": MultimodalLearner.stack_data"])
N="multimodal/lib/nmf.py"
p("C54","Non-negativity is preserved by NMF",
 "For non-negative data and initial values, all coefficients and components remain non-negative through any number of update iterations of fit or transform, zero entries remain zero, and after each dictionary update every component sums to less than 1, with deficit at most eps over the unnormalised sum. Data containing a negative entry is rejected with ValueError.",
 "all non-negative matrices, any number of iterations", "invariant over arbitrarily many iterations", [N+": KLdivNMF._update", N+": KLdivNMF._updated_W", N+": KLdivNMF._updated_H", N+": check_non_negative"])
p("C55","Transform does not change the dictionary",
 "transform returns coefficients and leaves components_ unchanged, for any number of iterations and options.",
 "all inputs and iteration counts", "all executions", [N+": KLdivNMF.transform", N+": KLdivNMF.fit_transform"])
p("C56","Coefficient updates decrease the divergence",
 "For a dictionary whose components sum to one, each coefficient update of transform on dense data does not increase the I-divergence between X+eps and WH+eps; this holds through any number of iterations.",
 "all non-negative data, positive coefficients, normalised dictionaries, any number of iterations", "monotonicity over all reals and iterations", [N+": KLdivNMF._updated_W", N+": KLdivNMF._Q"])
p("C57","Recorded errors decrease",
 "The list of errors returned by fit_transform(return_errors=True) has at most max_iter elements, consecutive errors decrease by at least tol * n_samples * n_features, so it is non-increasing for tol >= 0.",
 "all data, all stopping parameters", "all executions of the loop", [N+": KLdivNMF.fit_transform"])
p("C58","Sparse and dense errors agree",
 "KLdivNMF.error gives the same value on a sparse representation of non-negative X as on X itself.",
 "all non-negative matrices and their sparse representations", "two code paths on all inputs", [N+": KLdivNMF.error", N+": _special_sparse_dot"])
p("C59","Rescaling keeps the reconstruction",
 "KLdivNMF.scale(W, H, factors) returns matrices with the same product WH whenever no regularised factor is zero (and there is more than one component).",
 "all matrices and factors", "matrix identity for all inputs", [N+": KLdivNMF.scale", N+": _scale"])
p("C60","Coefficient updates conserve mass",
 "After a coefficient update on dense data, each row of W sums to sum_j (X_ij+eps) * (WH)_ij / ((WH)_ij + eps), whatever the dictionary; hence at eps = 0 and positive WH it equals the row sum of X.",
 "all data and dictionaries", "identity over all reals", [N+": KLdivNMF._updated_W"])
p("C61","Ignored options",
 "fit_transform gives the same result for every value of weights and scale_W; calling it with max_iter = 0 always fails.",
 "all data and options", "all option values", [N+": KLdivNMF.fit_transform"])
H="multimodal/features/hac.py"
p("C62","Co-occurrence counts",
 "For lag >= 1 and codes below n, coocurrences(q, n, lag) has length n^2 and its entry b*n+a is the number of times t with q[t] = a and q[t+lag] = b; entries sum to max(len(q)-lag, 0). Lag 0 fails on sequences of two or more elements. A negative lag -m is the lag len(q)-m when m < len(q), and else pairs each element with itself.",
 "all code sequences, codebook sizes and lags", "all sequences", [H+": coocurrences"])
p("C63","HAC vector layout",
 "The HAC vector has length (number of lags) * sum over codebooks of k^2 whatever the sound, and its blocks are the co-occurrence counts in codebook-major, lag-minor order.",
 "all quantised streams, codebooks and lags", "all inputs", [H+": hac", H+": compute_coocurrences"])
p("C64","Iterative k-means reaches k",
 "On non-empty data iterative_kmeans terminates and returns exactly max(k, 1) centroids, provided the k-means routine keeps the number of centroids it is given, codes are positions of centroids and singular values of non-empty arrays are found. Each turn splits a centroid with the most vectors into two points on each side of it.",
 "all data, all k, every behaviour of the k-means, svd and quantisation routines", "termination for all inputs", [H+": iterative_kmeans"])
V="multimodal/lib/vector_quantization.py"
p("C65","Vector quantisation histograms",
 "Hard quantisation gives one-hot rows marking a nearest centroid; soft quantisation gives positive rows summing to 1 in which closer centroids get larger weights.",
 "all data, centroids and softness", "inequalities over all reals", [V+": get_histos", V+": associate", V+": soft_associate"])
AH="multimodal/features/angle_histograms.py"
p("C66","Stacking and unstacking examples",
 "un_compact_examples(*compact_examples(x)) returns x for every non-empty list of arrays with a common number of columns.",
 "all lists of arrays", "round trip for all lists, including empty arrays", [AH+": compact_examples", AH+": un_compact_examples"])
p("C67","Velocity options of histogram features",
 "The angle/velocity histogram functions use a delay of 1 with zero padding for every value of their vel_delay and vel_padding arguments.",
 "all values of the arguments", "argument ignored for all values", [AH+": db_to_binned_hist_matrix", AH+": db_to_VQ_hist_matrix"])
K1="multimodal/lib/kde1d.py"; K2="multimodal/lib/kde2d.py"
p("C68","Linear binning conserves mass (1D)",
 "The one-dimensional linear binning gives non-negative bins whose sum times the bin width is 1 and whose first moment is the mean of the samples; the extra bin that is dropped is always empty; fewer than two bins, no sample, or samples outside explicit bounds raise ValueError; samples which are all equal cannot be binned.",
 "all non-empty sample lists in bounds, all bin counts >= 2", "sums over all sample lists", [K1+": get_bins_1d"])
p("C69","Linear binning conserves mass (2D)",
 "The two-dimensional linear binning gives non-negative bins whose sum times the cell area is 1, the dropped bins are always empty, and sums along an axis are the one-dimensional bins of the other coordinate. Explicit bounds are not checked: a coordinate a step or more above raises IndexError, and others may lose mass or get negative weights.",
 "all non-empty sample lists in bounds, all bin counts >= 2", "sums over all sample lists", [K2+": get_bins_2d"])
LG="multimodal/lib/logger.py"
p("C70","A run never overwrites a value",
 "store raises ValueError when the key already has a value in the current run and leaves the log unchanged, raises IndexError when there is no run, and otherwise adds exactly that value to the last run; values of other runs never change.",
 "every history of logger operations", "all histories", [LG+": Logger.store", LG+": Logger.store_result", LG+": Logger.new_run"])
p("C71","Log key bookkeeping",
 "After any sequence of operations starting from a new logger, exp_keys is exactly the set of keys stored in some run and result_keys is a subset of it; get_values(k) has one entry per run.",
 "every history of logger operations", "all histories", [LG+": Logger"])
p("C72","Saving and loading a log",
 "Saving a logger and loading it back gives the same global values, runs and run keys, for all keys (including keys with underscores) and any mix of array and plain values, provided the file name does not end in .npz (then a log with arrays cannot be loaded back); loading without arrays drops exactly the array values.",
 "all loggers", "round trip over all logs and keys", [LG+": Logger.save", LG+": Logger.load", LG+": _split_for_save"])
p("C73","Result keys survive saving",
 "The set of result keys of a logger is recovered after saving and loading.",
 "all loggers", "round trip over all logs", [LG+": Logger.save", LG+": Logger.load"])
p("C74","Crash while saving",
 "If a save is interrupted, loading the file gives either the log previously saved or the new one.",
 "all pairs of logs and all crash points between file writes", "crash points", [LG+": Logger.save"])
p("C75","Merging logs",
 "merge_experiments of loggers with equal run keys returns the first logger with the runs of all of them in order; it raises ValueError on an empty list and an assertion error when keys differ.",
 "all lists of loggers", "all lists", [LG+": Logger.merge_experiments", LG+": Logger.append_exps_from_other"])
S="multimodal/db/models/sound.py"
p("C76","Tag ids are consistent",
 "After any sequence of tag additions the tag list has no repetition and looking up the id of a tag gives its position; adding an existing tag raises ValueError and get-or-add never changes ids already given.",
 "every history of additions", "all histories", [S+": DataBase.add_tag", S+": DataBase.get_tag_add"])
p("C77","Sound database round trip",
 "Writing a consistent sound database (unsorted) and loading it in a new one gives the same tags, speakers and records in the same order; with sorting, the records of each speaker are a reordering sorted by audio name.",
 "all databases whose records use known tags", "round trip over all databases", [S+": DataBase.write_json", S+": DataBase.load_from"])
p("C78","Records only use known tags",
 "add_record accepts a record exactly when its speaker is known and all its tags are known.",
 "all databases and records", "boundary for all sizes", [S+": DataBase.add_record"])
p("C79","Keyword co-occurrence counts",
 "count_by_keywords returns a symmetric matrix with null diagonal whose (i, j) entry is the number of records in which both tags occur (for records without repeated tags).",
 "all databases", "all records", [S+": DataBase.count_by_keywords"])
p("C80","Order on records",
 "Comparison of records is a strict total order on audio names: exactly one of a < b, b < a, or same audio name holds, and a > b is equivalent to b < a.",
 "all pairs of records", "all pairs, including distinct records with the same name", [S+": Record.__lt__", S+": Record.__le__"])
O="multimodal/db/models/objects.py"
p("C81","Parsing frames",
 "A frame parsed from a description line has one view per object block of the line.",
 "all numbers of blocks", "all line shapes", [O+": Frame.__init__", O+": Frame.from_line"])
p("C82","Frame histograms",
 "For an object database in which each frame has at least one view, the per-frame histogram matrix has one row per frame equal to the average of the rows of the views of that frame.",
 "all databases", "all view counts", [O+": ObjectDB._compute_histos_matrix_by_frame"])
p("C83","Object database counts",
 "In a database built by reading frames, each histogram matrix has exactly as many rows as there are views in total, whichever frames were skipped because of missing files or wrong feature counts.",
 "all sequences of frames and all failure patterns", "all failure patterns", [O+": ObjectDB.build_from", O+": ObjectDB.add_feats"])
K="multimodal/db/models/kinect_motion.py"
p("C84","Motion database round trip",
 "Exporting a motion database to npz/json and loading it gives the same records, label names and marker names.",
 "all databases", "round trip over all databases", [K+": MotionDatabase.export", K+": MotionDatabase.load_from_npz"])
p("C85","Extending a motion database",
 "extend either fails and leaves the database unchanged, or appends all records of the other database in order and leaves the rest unchanged; it succeeds exactly when the marker names are equal and every label occurring in either database has a description in both and the two are equal; it raises ValueError when marker names or descriptions differ.",
 "all pairs of databases", "all pairs", [K+": MotionDatabase.extend"])
p("C86","Loaders return aligned data and labels",
 "For the object loader, the k-th row of the data and the k-th label come from the same frame and the label belongs to the kept set; for the acorns loader, removing blacklisted records removes the same positions from data and labels. A loader whose data and labels have different sizes raises.",
 "all databases and kept label sets", "all databases", ["multimodal/db/objects.py: ObjectsLoader", "multimodal/db/acorns.py: Year1Loader", "multimodal/db/models/loader.py: Loader.check_n_samples"])
X="multimodal/experiment.py"
p("C87","Examples are never used for training or testing",
 "After prepare, examples contain exactly one sample of each label, examples and others partition the paired samples, and data rows and labels of both parts stay aligned; hence no run trains or tests on an example. prepare fails with ValueError for a 'single' run with less than ten other samples, with AssertionError when a label from 10 on has several samples, and succeeds otherwise (for aligned labels and data with as many labels in each modality).",
 "all inputs, shuffles and run modes", "all shuffles", [X+": MultimodalExperiment.prepare", X+": MultimodalExperiment._set_data_and_labels_for_examples"])
p("C88","Runs of an experiment",
 "run performs exactly one run per element of the split generator, in order, and logs its train and test sets, then stores end_time; with leave-one-out there are n_samples runs testing each sample exactly once.",
 "all sample numbers and run modes", "all executions", [X+": MultimodalExperiment.run", X+": MultimodalExperiment.get_generator", X+": MultimodalExperiment._perform_one_run"])
p("C89","Result keys are distinct (two modalities)",
 "For distinct modality names without '2' and '_' that are not 'bis', 'frob' or 'cosine', all result keys stored during a run are distinct, so storing never fails; with a modality which has one of these names, the run fails with ValueError.",
 "all lists of modality names", "string injectivity for all names", [X+": TwoModalitiesExperiment._get_exp_key", X+": TwoModalitiesExperiment._evaluate"])
p("C90","Result keys are distinct (three modalities)",
 "With at least three modalities whose names are distinct and have no '2' and no '_' (and, with exactly three, whose second and third ones are not named 'bis', 'frob' or 'cosine'), all result keys stored by ThreeModalitiesExperiment during a run are distinct, so that storing never fails; with exactly two modalities, or three of which the second or third has one of these names, the run fails with ValueError.",
 "all lists of modality names", "string injectivity for all names", [X+": ThreeModalitiesExperiment._get_score_key", X+": ThreeModalitiesExperiment._tested_combinations"])
p("C91","Experiment parameters round trip",
 "from_serialized(serialize_parameters(e)) has the same modalities, loaders, k, iteration numbers, coefficients, shuffling, run mode and debug flag as e.",
 "all experiments with known datasets", "round trip", [X+": MultimodalExperiment.serialize_parameters", X+": MultimodalExperiment.from_serialized"])
T="multimodal/lib/transformations.py"
p("C92","Quaternion algebra",
 "quaternion_multiply is associative with unit (0,0,0,1), the norm is multiplicative, and quaternion_inverse is a two-sided inverse of every non-zero quaternion.",
 "all real quaternions", "identities over all reals", [T+": quaternion_multiply", T+": quaternion_inverse", T+": quaternion_conjugate"])
p("C93","Quaternions to rotation matrices",
 "quaternion_matrix of a non-zero quaternion (squared norm above the threshold) is a rotation (orthogonal with determinant 1), is unchanged by scaling the quaternion as long as its squared norm stays above the threshold, turns products of quaternions into products of matrices, and turns a vector v into q v q^-1; below the threshold it is the identity matrix.",
 "all real quaternions", "identities over all reals", [T+": quaternion_matrix"])
p("C94","Joint angles are frame invariant",
 "The Euler angles computed by get_angles between two frames do not change when both orientations are composed with a common rotation, nor when either quaternion is negated, nor when they are scaled as long as the ratio of the squared norm of the second to that of the first stays above the threshold of quaternion_matrix; they do not depend on positions. For unit quaternions the relative rotation is the product of the rotations by these angles about the third, second and first axes, up to 2 _EPS, and exactly away from gimbal lock. A null source quaternion gives NaNs, a null destination null angles, a missing frame IndexError.",
 "all samples and rotations", "identities over all reals", [AH+": get_angles", T+": euler_from_quaternion"])
p("C95","Euler angles represent the rotation",
 "For each of the 24 conventions of axes, the matrix rebuilt from the Euler angles extracted from a rotation matrix is that matrix away from gimbal lock and at exact gimbal lock, and has all entries within 2 _EPS of it in all cases; and angles in range away from gimbal lock are given back by extraction from their matrix.",
 "all rotation matrices", "trigonometric identity over all reals", [T+": euler_from_matrix", T+": euler_matrix"])
p("C96","Destination path checks and database download",
 "check_destination_path raises exactly when the destination is unusable and creates nothing in that case.",
 "all file-system states", "all states", ["multimodal/lib/net.py: check_destination_path"])
p("C97","Statistics of a sound database",
 "statistics raises TypeError on every database with at least one speaker; it succeeds exactly when there is neither a speaker nor a tag.",
 "all databases", "all databases", ["multimodal/db/models/sound.py: DataBase.statistics"])
p("C98","Ratio of zero coefficients",
 "real_sparsity of a non-empty matrix is the ratio of its null coefficients, between 0 and 1, 1 exactly for the null matrix and 0 exactly when no coefficient is null; a sparse matrix without repeated places gives the value of its dense version.",
 "all matrices", "all shapes and values", ["multimodal/lib/metrics.py: real_sparsity"])
p("C99","Object files: names and order of features",
 "The label and time of a frame are those written at the end of its file name, whatever precedes them, and a name without such an end raises ValueError; when features are read, feature k of view v is the line of rank 5v+k counted from the end of the feature file, blank lines ignored.",
 "all names and all feature files", "all strings and numbers of views", ["multimodal/db/models/objects.py: Frame._parse_filename", "multimodal/db/models/objects.py: Frame.read_features"])
p("C100", "Text export of a motion database",
  "Exporting the data of a motion database as text succeeds exactly when all arrays have two dimensions, or at least two when flattening is forced; it then writes one file per record, named after its rank, with the array (flattened when it has more than two dimensions). Otherwise it raises ValueError, and the files of the records before the first wrong array have been written.",
  "all databases and arrays", "all sequences of arrays of any number of dimensions",
  ["multimodal/db/models/kinect_motion.py: MotionDatabase.save_data_txt"])
p("C101", "Download of the acorns data set",
  "Feature files of different years or speakers have different names. For year 1 or 2, into existing directories where none of the files exists, download_meta_and_features succeeds without overwrite, even into a single directory, and all files are as sent by the server. The year is not checked: for a year above 2 the description is downloaded before IndexError, and year 0 downloads ten speakers.",
  "all years, speakers, file systems", "all years and speakers",
  ["multimodal/db/acorns.py: feature_file_name, download_meta_and_features"])
p("C102", "End of the NMF loop",
  "fit_transform writes its warning exactly when the tolerance is positive and the last allowed iteration was started, also when that iteration finds convergence. Transforming data whose number of features is not that of the dictionary raises AssertionError.",
  "all data, dictionaries and stopping parameters", "all executions of the loop",
  ["multimodal/lib/nmf.py: KLdivNMF.fit_transform", "multimodal/lib/nmf.py: KLdivNMF._init"])
p("C103", "Objective of coefficient updates for any dictionary",
  "Whatever the non-negative dictionary, normalised or not, for dense and sparse data, an update of coefficients does not increase -sum A log(WH+eps) + sum W (A being X+eps, on stored entries for sparse data), and decreases it strictly unless it changes no coefficient; positive coefficients which it does not change are a minimum over all non-negative coefficients.",
  "all non-negative data, coefficients and dictionaries", "inequality over all reals",
  ["multimodal/lib/nmf.py: KLdivNMF._updated_W", "multimodal/lib/nmf.py: KLdivNMF._Q"])
p("C104", "From training to reconstruction",
  "With distinct modalities, non-negative data of the declared dimensions, non-negative coefficients and at least one iteration, train succeeds; with the learnt dictionary modality_to_modality succeeds on non-negative data of the right dimension and returns a non-negative matrix with as many rows and the dimension of the destination modality. Data whose number of columns is not the one declared for its modality raises AssertionError, an unknown modality ValueError, whichever comes first.",
  "all data, dimensions, coefficients, numbers of iterations", "composition over all shapes and values",
  ["multimodal/learner.py: MultimodalLearner.train", "multimodal/learner.py: MultimodalLearner.modality_to_modality", "multimodal/learner.py: fit_coefficients"])
p("C105", "Vector quantisation histogram matrix",
  "In Python 3 db_to_VQ_hist_matrix raises an exception whatever its arguments: the map object holding the compacted data is exhausted when it is used for the second time, and with bounds the filtered angles cannot be indexed. In Python 2, when k-means gives nb_bins centroids, entry (record, dof, centroid) is the sum over the frames of the record of their histogram for the dof, divided by the number of frames and of dofs, so that lines of records with frames sum to 1.",
  "all databases, options and behaviours of the routines", "every input in Python 3; every shape in Python 2",
  ["multimodal/features/angle_histograms.py: db_to_VQ_hist_matrix"])
p("C106","Gaussian density estimates (1D)",
  "gaussian_kde_1d with a non-zero width returns nb_bins grid points and 2 * nb_bins - 2 non-negative values whose sum times the step is 1; on the points from the lower bound minus half of the range, their mean is the mean of samples minus half of the range times the first value of the kernel; moving samples moves the grid and leaves values as they are; each value is the sum of bins weighted by a Gaussian, cut to the range, of the differences to their grid points. A null width raises ZeroDivisionError. kde_KL_divergence_1d of samples from themselves is 0; in general it is minus the integral of the terms of the divergence, hence may be negative.",
  "all samples in bounds, widths and bin counts >= 2", "real analysis over all samples", [K1+": gaussian_kde_1d", K1+": kde_KL_divergence_1d"])
p("C107","Gaussian density estimates (2D)",
  "gaussian_kde_2d with non-zero widths returns nb_bins x nb_bins non-negative values whose sum times the area of a cell is positive and at most 1 (what the kernel moves across borders is lost): each is the sum of bins weighted by a Gaussian of the differences to their grid points, moved by half of a step when nb_bins is even and by a whole step when it is odd. A null width raises ZeroDivisionError, and errors of binning are kept.",
  "all samples in bounds, widths and bin counts >= 2", "real analysis over all samples", [K2+": gaussian_kde_2d"])
p("C108","Weights of modalities",
  "Given coefficients are used as they are; default ones make the average over samples of the sum of the weighted features 1 for each modality whose features do not sum to zero.",
  "all data", "all data", [X+": MultimodalExperiment._set_coefs"])
p("C109","Meaning of the names of axes",
  "For each name 's'+abc, euler_matrix is the product R_c(ak) R_b(aj) R_a(ai) of rotations about coordinate axes, and for each name 'r'+abc the product R_a(ai) R_b(aj) R_c(ak); it is always a rotation.",
  "all angles and the 24 names", "all real angles", [T+": euler_matrix", T+": _AXES2TUPLE"])
p("C110","Quaternions of Euler angles",
  "quaternion_from_euler gives a unit quaternion whose quaternion_matrix is the euler_matrix of the same angles and axes; the quaternion of the angles given by euler_from_quaternion has the same rotation as the original one, up to 2 _EPS and exactly away from gimbal lock.",
  "all angles, quaternions and conventions of axes", "all real angles", [T+": quaternion_from_euler", T+": euler_from_quaternion"])
p("C111","Quaternions of rotation matrices",
  "quaternion_from_matrix of a rotation matrix raises no exception and gives a unit quaternion whose quaternion_matrix is the matrix; from the matrix of a unit quaternion it gives this quaternion or its opposite, and these are the only unit quaternions of the rotation.",
  "all rotation matrices and unit quaternions", "all reals", [T+": quaternion_from_matrix"])
p("C112","Angle arrays depend on postures only",
  "db_to_list_of_angle_arrays gives for each record an array with one line per sample, of the angles of the ten pairs of frames in order; it is unchanged when at each time the whole body is turned in any way or moved. A frame unknown to the database, or a record without samples, raises ValueError.",
  "all databases", "all databases and rotations", [AH+": db_to_list_of_angle_arrays", AH+": angles_indices", AH+": record_to_angle_array"])
VC="multimodal/db/models/vctk.py"; AC="multimodal/db/models/acorns.py"
p("C113","Speakers imported from VCTK",
  "VCTKDB.from_db_root with speakers='sound', 'text' or 'info' adds exactly the speakers which have a directory p<name> of sounds, of transcriptions, or a line of information, in increasing order after those of the database, each with its information or None if there is none; what was in the database does not change.",
  "all file systems, databases and roots", "any directory contents", [VC+": VCTKDB.from_db_root", VC+": _speaker_names_from"])
p("C114","Utterances imported from VCTK",
  "The records of an imported speaker follow the increasing order of utterance names, one for each name which a sound file (wav) or a text file (txt) of the speaker bears; audio is the name of the file p<speaker>_<name>.wav if it exists and None otherwise, trans the content of the text file or None. If files are named p<speaker>_<name>.<ext>, the names found are exactly those of the files and every record has a sound or a transcription.",
  "all file systems", "any directory contents and file names", [VC+": VCTKDB._build_record", VC+": _records_list_from", VC+": _files_in"])
p("C115","Information on speakers",
  "Whatever the white space around and between words, a line of the speaker file gives the name, age, genre and accent as its first words, and the others joined by single spaces as the region; parsing the file succeeds exactly when every line has at least four words and otherwise raises ValueError; the last line of a speaker counts.",
  "all file contents", "all strings", [VC+": _parse_speaker_info", VC+": VCTKDB._parse_speakers_info"])
p("C116","Imports of VCTK which fail",
  "from_db_root fails before adding any speaker with speakers='everything' (TypeError) and with unknown values (ValueError) if the files can be read; if a selected speaker is already in the database it raises ValueError, what was in the database is still there, and no speaker is there twice.",
  "all file systems, databases and modes", "all modes", [VC+": VCTKDB.from_db_root"])
p("C117","Import of Acorns",
  "AcornsDB.from_ACORNS_root into a new database succeeds exactly when the year is 1 or 2, every speaker of the year has a directory, and every XML file in it has the expected elements; the database then has these speakers, and each has, sorted by audio name, one record for each XML file, with the style, audio name, tags and transcription of the first utterance in the file.",
  "all file systems and XML documents", "all trees of elements and all sets of files", [AC+": AcornsDB.from_ACORNS_root", AC+": AcornsDB._parse_record", AC+": _get_XML_files_in"])
p("C118","Years and speakers of Acorns",
  "Years other than 1 and 2 are refused before the database changes; year 1 has four speakers and year 2 ten, with distinct names Speaker-dd in order.",
  "all years", "all integers", [AC+": check_year", AC+": AcornsDB.get_speakers", AC+": AcornsDB.n_speakers"])
p("C119","Loading the first choreography database",
  "choreo1.load refuses unknown data sets with ValueError whatever the files, once the path to the data is known; in Python 2 the data and labels returned correspond to the records of the description, in order; in Python 3 it never returns (TypeError in the last print).",
  "all descriptions and data files", "all files", ["multimodal/db/choreo1.py: load"])
p("C120","Configuration values",
  "CONFIG[key] is the value of the key if it is there; otherwise it raises NoConfigValueError, not KeyError, with a message which tells the key.",
  "all configurations and keys", "all keys", ["multimodal/lib/config.py: Config.__getitem__"])
p("C121","Description files of corpora",
  "What the imports of Acorns and VCTK give can always be written as a description file; loading it gives the same database up to the order of records if every utterance has a sound, and fails with TypeError if a speaker with several utterances has one without a sound.",
  "all corpora", "all file systems", ["multimodal/db/scripts/parse_acorns", "multimodal/db/scripts/parse_vctk", "multimodal/db/models/sound.py: DataBase.load_from"])
PL="multimodal/plots.py"; LP="multimodal/lib/plot.py"
p("C122","Combinations of modalities in plots",
  "all_pairs gives each ordered pair of two different elements once, n(n-1) of them; combinations adds each element from all of the others, n*n in total, without duplicates when n >= 3; the legends of plot_boxes_all_mods split them into three equal groups if n is a multiple of 3 and raise ValueError otherwise.",
  "all lists without duplicates", "any number of modalities", [PL+": all_pairs", PL+": combinations", PL+": plot_boxes_all_mods"])
p("C123","Plots read results which experiments store",
  "After a run of a two or three modality experiment, every score read by the curves and boxes for its modalities is in the logger; curves show the scores of the first metric (Kullback-Leibler), whatever the argument metric, boxes those of the cosine.",
  "all experiments, learners, metrics and combinations of modalities", "all names of modalities", [PL+": plot_one_curve", PL+": plot_boxes_one_exp", X+": TwoModalitiesExperiment._evaluate", X+": ThreeModalitiesExperiment._evaluate"])
p("C124","Colours of modalities",
  "get_color_for_modalities succeeds exactly for the names image, motion and sound (for pairs: two different ones) and raises KeyError for any other name; two modalities, or two pairs, never share a colour.",
  "all names", "all strings", [PL+": get_color_for_modalities", PL+": PAIRS_COLORS", PL+": COLORS"])
p("C125","Curves with deviations",
  "plot_var draws for each row its mean at the given abscissa (or at its index for arrays), with a half-width whose square is between 0 and (hi - mean)(mean - lo) for values in [lo, hi] and is 0 exactly when all values are equal; a list without abscissas is an AttributeError and a different number of abscissas a ValueError; plot_one_curve draws for each k the values of the logger at the same position.",
  "all arrays and abscissas", "all numbers of rows and values", [LP+": plot_var", PL+": plot_one_curve"])
p("C126","Construction of score plots",
  "ScorePlot given an array of similarities and options can be built exactly when there is a row for each sliding window (IndexError otherwise), shows [0, 20] at first, keeps the row of each window with it, and uses the options given over the defaults (sentences printed, boundaries drawn in white with width 2, absolute times, markers of size 5, no colors); InteractivePlot and plot_one_sentence given labels before similarities, as in their signatures, raise TypeError as soon as there is a window, as does ScorePlot without options.",
  "all windows, arrays and options", "any number of windows", [PL+": ScorePlot.__init__", PL+": InteractivePlot.__init__", PL+": plot_one_sentence"])
p("C127","What a score plot shows",
  "When the records cover the current window [s, e], draw succeeds; points and curves are exactly those of the sliding windows whose middle is in [s, e], in order, each window has a segment cut to [s, e] at the height of its greatest similarity, each record which meets the current window has its text at the middle of its visible part and a line at its visible end (if these options are on), all times being relative to s with use_relative_time.",
  "all windows, similarities, options and current windows", "all times", [PL+": ScorePlot.draw", PL+": ScorePlot.filter_windows", PL+": ScorePlot.plot_boundary", PL+": ScorePlot.plot_sentence"])
p("C128","Score plots beyond the records",
  "draw raises TimeOutOfBound whenever a limit of the current window is not in the records; so InteractivePlot can be built exactly when the records start at or before 0 and last until 20 or later.",
  "all records and current windows", "all times", [PL+": ScorePlot.draw", PL+": InteractivePlot.__init__"])
p("C129","Moving in interactive plots",
  "After any sequence of slider and key events, windows, similarities, records and options are unchanged and either nothing has happened or the current window is [start, start + width] of the sliders; right and left move by half a width, left undoes right when sliders do not limit values, other keys do nothing; going beyond the records raises TimeOutOfBound after the slider has moved.",
  "all sequences of events, all plots, all limits of sliders", "sequences of any length", [PL+": InteractivePlot.update", PL+": InteractivePlot.on_key", PL+": InteractivePlot.set_start", PL+": InteractivePlot.set_width"])
p("C130","Plots of one sentence",
  "plot_one_sentence given similarities then labels succeeds for every record window; with default options times go from 0 to the duration of the record, each point is the middle of a sliding window relative to the start of the record with the similarities of this window, no window whose middle is in the record is missing, and neither texts nor lines are drawn.",
  "all record windows, sliding windows and similarities", "all times", [PL+": plot_one_sentence"])
PS="samples/plot_image_sound_eval_sliding.py"; PI="samples/plot_info_matrix.py"; LA="samples/launcher.py"; SS="samples/image_sound_eval_sliding.py"
p("C131","Histograms of words by label",
  "word_histo_by_label gives each label once and then the other words in alphabetical order; the entry of a word and a label is the proportion of the records with this label whose transcription has the word, whatever the number of times, and p_labels are the proportions of the labels. Words of a transcription are its lower case words without the marks '.?!' around it. Different numbers of records and labels raise AssertionError, no records ValueError.",
  "all transcriptions, labels, and orders in which sets are enumerated", "any number of records and words", [PS+": word_histo_by_label"])
p("C132","Information of words on labels",
  "The 2x2 table of a word and a label is the joint law of 'the record has the word' and 'the record has the label'; word_label_info has a row for each word and a column for each label, whose entry is the mutual information of the two events: it is between 0 and log 2, and 0 exactly when the events are independent.",
  "all transcriptions and labels", "real-valued logarithms; any number of records", [PS+": hist_word_label", PS+": word_label_info"])
p("C133","Information of coefficients on labels",
  "mutual_information_by_label gives for each label the mutual information between 'the sample has this label' and the bin, among ten bins of the range of the values, of the coefficient of the sample; it is between 0 and log 2, and 0 exactly when the bins are independent of the label, in particular for a constant coefficient; no values raise ValueError.",
  "all values and labels", "real-valued logarithms; any number of samples", [PI+": mutual_information_by_label", PI+": internal_histograms_by_label", PI+": _sum_all_but_i"])
p("C134","Order of the columns of information matrices",
  "When there are at least as many coefficients as labels the plot shows each coefficient once; the first ones, one for each label, have the greatest total information among all choices of different coefficients, the others follow in increasing order, and the matrix shown is the matrix in this order. With more labels than coefficients IndexError is raised.",
  "all matrices", "any sizes and entries", [PI+": plot_mutual_info"])
p("C135","Labels computed again from the log",
  "After a successful prepare, the label names and pairing which are in the log give again, from the labels of any modality, the labels of the samples of the experiment (the first 200 with debug), and those of the examples and of the other samples. The keys 'label-pairing' and 'sample-pairing', which plot_info_matrix.py uses, are not in the log of any run: KeyError.",
  "all experiments, labels, shuffles and runs", "any number of samples and modalities", [PI+": labels", X+": Experiment.prepare"])
p("C136","Confusion matrix of the sliding script",
  "The entry of two labels is the number of test samples with the first one for which the second one was found; rows sum to the numbers of samples of each label, columns to the numbers of times labels were found, and the sum of the diagonal over the number of samples is found_labels_to_score. Different lengths raise AssertionError, labels out of range IndexError.",
  "all lists of labels", "any number of labels and samples", [PS+": confusion", E+": found_labels_to_score"])
p("C137","Test samples of the sliding script",
  "The labels which plot_image_sound_eval_sliding.py takes for the test samples are those at these positions in the list of all samples, while test positions are positions among the samples which are not examples; they are the labels of the test samples when all examples come after them, and there is an experiment in which they are not.",
  "all experiments and test positions", "any number of samples", [PS+": test_idx", PS+": test_labels", X+": Experiment.prepare"])
p("C138","Jobs of the launcher",
  "All jobs of the launcher have different names; the parameters of each experiment are written for the job with its name, jobs with the script of three modalities are those of experiments with three modalities, and a name finds its job and its experiment. All experiments make 50 iterations for training and for tests, once, with shuffled labels, without coefficients and not in debug mode; their modalities and data are those of their names, with 50 components for the comparison of descriptors.",
  "all values of k without duplicates, numbers of runs, and sets of descriptors with different joined names", "names are built from numbers of any size", [LA+": jobs", LA+": exps", LA+": EXPS_BY_NAME", LA+": JOBS_BY_NAME"])
p("C139","Results which the launcher collects",
  "When all logs are on the disk, and those of experiments with the same modalities have the same keys, collect_results gives for each pair of modalities and each k the experiments of the logs of all of the runs for this pair and k, once each; collect_results3 the same for three modalities, under each pair; collect_results_image for each set of descriptors. A missing log is an error; with no runs ValueError is raised.",
  "all plans, disks and logs", "any number of runs", [LA+": collect_results", LA+": collect_results3", LA+": collect_results_image", LG+": Logger.merge_experiments"])
p("C140","Jobs do not overwrite each other's logs",
  "When jobs of the launcher save their logs, in any order, the launcher loads for each of them the values (without arrays) which it has saved, and the logs of the jobs which did not save are as before; when all of them have saved, the logs can be collected.",
  "all plans, logs and orders", "names and directories of any form", [LA+": jobs", LG+": Logger.save", LG+": Logger.load"])
p("C141","Sliding windows over files of sound",
  "The sliding windows over the files of all pairings are as many as the multiples of the shift at which a whole window fits, up to the tolerance; each one, once loaded, has its start and its end and exactly the samples of the sounds put one after the other whose slots are in it, up to the tolerance. A sound shorter than the width by less than the tolerance raises TimeOutOfBound. The windows of the records have the record of each pairing, from the end of the sounds before it and for the duration of its sound.",
  "all files with one rate of at most 5e7, all widths of at least a sample and shifts of at least 2 TOL", "any number of files and samples", [SS+": sliding_wins", SS+": test_sound_wins", PS+": sliding_wins", PS+": record_wins", W+": slider"])
p("C142","Translation matrices",
  "translation_matrix(d) moves each point by d and translation_from_matrix gives d back; products of translations add the directions, the opposite direction undoes, and identity_matrix is the translation by 0.",
  "all directions", "real coordinates of any size", [T+": translation_matrix", T+": translation_from_matrix", T+": identity_matrix"])
p("C143","Reflections",
  "reflection_matrix takes each point to its mirror image: the move is along the normal and the middle is on the plane; the points which do not move are exactly those of the plane; distances are kept, reflecting twice does nothing and the determinant is -1. A null normal gives NaN.",
  "all points, normals and reflected points", "real coordinates of any size", [T+": reflection_matrix"])
p("C144","Rotations about an axis",
  "rotation_matrix leaves the points of the axis where they are, keeps all distances and moves points orthogonally to the axis; the arm of a point from the axis turns by the given angle, in the direct sense about the direction. About one axis angles add, complete turns do nothing, the opposite angle undoes, and the opposite angle about the opposite direction is the same rotation. Without a point, for directions longer than _EPS, it is the matrix of quaternion_about_axis. A null direction gives NaN.",
  "all angles, directions, points", "real coordinates and angles of any size", [T+": rotation_matrix", T+": quaternion_about_axis", T+": quaternion_matrix"])
p("C145","Scalings",
  "scale_matrix multiplies vectors from the origin by the factor or, with a direction, multiplies their component along the direction and leaves the orthogonal part; the origin does not move and factors multiply. A null direction gives NaN.",
  "all factors, origins and directions", "real coordinates of any size", [T+": scale_matrix"])
p("C146","Projections",
  "projection_matrix without perspective takes each point to a point of the plane along the direction (or the normal), leaves the points of the plane and is idempotent; there are no numbers exactly for a null normal or a direction in the plane. With a perspective point each point which is not at the depth of this point goes to the point of the plane on the line through both; the pseudo projection followed by the orthogonal one is the perspective one, and it reverses the order of depths in front of the perspective point.",
  "all planes, directions, perspective points and projected points", "real coordinates of any size", [T+": projection_matrix"])
p("C147","Clip matrices",
  "clip_matrix raises ValueError exactly for bounds in the wrong order or, with perspective, a near bound which is not above _EPS. The new coordinates are all in [-1, 1] exactly for the points of the box, and with perspective, after division by the weight, exactly for the points of the truncated pyramid, among points out of the plane of the eye.",
  "all bounds and points", "real coordinates of any size", [T+": clip_matrix"])
p("C148","Shears",
  "shear_matrix raises ValueError exactly when the cosine of direction and normal is above 1e-6 in absolute value; otherwise each point moves along the direction by the tangent of the angle times its signed distance to the plane; the points of the plane do not move. With orthogonal direction and normal the determinant is 1 and the opposite angle undoes. Null vectors give NaN.",
  "all angles with a tangent, directions, planes and points", "real coordinates of any size", [T+": shear_matrix"])
p("C149","Random rotations",
  "random_quaternion of three numbers, the first in [0, 1], is a unit quaternion and random_rotation_matrix a rotation; every unit quaternion and every rotation is the result for some numbers in the unit cube. Another number of values raises AssertionError.",
  "all drawn numbers", "real numbers; all rotations are reached", [T+": random_quaternion", T+": random_rotation_matrix"])
p("C150","Spherical interpolation of quaternions",
  "quaternion_slerp gives the normalised quaternions at the fractions 0 and 1, and the first one when both are nearly the same or opposite. Otherwise the result is in the plane of the two, and for even spin it has norm one and makes the angles fraction*arc and (1-fraction)*arc with the ends, where arc is the angle of the ends plus spin*pi (with shortestpath the second end is the opposite one when nearer); for odd spin the exact norm is given, which is not one in general. It never raises an exception; a null quaternion gives NaN.",
  "all quaternions, fractions, spins and both paths", "real numbers and any integer spin", [T+": quaternion_slerp"])
p("C151","Trackball",
  "Whatever the sequence of place, setaxes, setconstrain, down, drag and next calls on an Arcball, with axes not null and not along (0, 0, -1), matrix() is a rotation. Calls only raise ZeroDivisionError (null radius) or IndexError (press when constrained to an empty list of axes). A drag shows the rotation at the press followed by the rotation about the axis orthogonal to both points of the sphere which takes the first to its mirror image across the second; it only depends on the press and the cursor, and going back to the point of the press gives the first rotation back; when constrained the axis does not move. next() repeats the last step. Centre and radius are those of the last place, constraint and axes (made unit vectors) those of the last setconstrain and setaxes, which show the same rotation. Constrained to the axis (0, 0, -1) the matrix can become NaN.",
  "all initial rotations, sequences of calls, cursor positions", "sequences of calls of any length", [T+": Arcball", T+": arcball_map_to_sphere", T+": arcball_constrain_to_axis", T+": arcball_nearest_axis"])
p("C153","Products and comparison of matrices",
  "concatenate_matrices is the identity for no matrix, and transforming by the result is transforming by each matrix in turn from the last to the first. is_same_transform is True exactly when both last entries are not null and the entries divided by the last ones are within the tolerance relative to the second matrix; multiples are the same transform; the relation is not symmetric.",
  "all lists of matrices, all pairs of matrices", "any number of matrices", [T+": concatenate_matrices", T+": is_same_transform"])
p("C154","Crystallographic cells",
  "The columns of orthogonalization_matrix have the given lengths and make the given angles, and its determinant is the volume of the cell. ValueError is raised exactly when no cell has such angles; NaN appear exactly for consistent angles of which one of the first two has a null sine.",
  "all lengths and angles", "real numbers of any size", [T+": orthogonalization_matrix"])
p("C152","Decomposition of matrices",
  "compose_matrix scales along the axes, then shears, then rotates about the static x, y and z axes, then translates; parts not given do nothing; a perspective sets the weights and everything is divided by the weight of the origin. decompose_matrix raises ValueError exactly when the last entry is below _EPS in absolute value or the linear part is singular; compose_matrix of its result is the matrix divided by its last entry, except that perspective entries are forgotten when none is above _EPS. Angles are in the usual ranges, factors have all the sign of the determinant, and decompose_matrix gives back the parts compose_matrix was given when they are in these ranges, away from gimbal lock.",
  "all matrices, all parts", "real entries of any size", [T+": decompose_matrix", T+": compose_matrix"])
p("C155","Superimposition is the best one",
  "superimposition_matrix raises ValueError exactly for sets of different sizes or of less than three points. Its result is a rotation, a uniform scale and a translation which puts the centroid of the first points on that of the second points; the scale is one or, when asked for, the ratio of the root mean square deviations. No rotation and translation with the same scale gives a lower sum of squared distances, with singular values as well as with quaternions. There are no numbers exactly for first points all in the same place when the scale is asked for.",
  "all sets of points of any size, both algorithms, with or without scaling", "any number of points with real coordinates, compared with all rotations and translations", [T+": superimposition_matrix"])
p("C156","Superimposition of similar sets",
  "When the second points are the first ones rotated and moved (and scaled, when the scale is asked for), superimposition_matrix maps each first point exactly on the second one, with both algorithms, even for aligned points.",
  "all sets of at least three points, all rotations, translations and scales", "any number of points with real coordinates", [T+": superimposition_matrix"])
p("C157","Mirror found from its matrix",
  "reflection_from_matrix of a matrix of reflection_matrix raises no exception; its point is on the mirror plane, its normal has norm one, and reflection_matrix of both is the matrix. The only other outcome is a point without finite coordinates, when the last eigenvector of eigenvalue one given by the library is a direction.",
  "all points and normals, all answers of the eigenvalue routine which meet its contract", "real coordinates, any choice of eigenvectors", [T+": reflection_from_matrix"])
p("C158","Rotation found from its matrix",
  "rotation_from_matrix of a rotation followed by any translation, of cosine one or at most 1 - 1e-8, raises no exception; the angle is in ]-pi, pi], the direction has norm one, and rotation_matrix of angle, direction and point is the matrix. The only other outcome is a point without finite coordinates, when the last eigenvector of eigenvalue one is a direction.",
  "all rotations, all translations, all answers of the eigenvalue routine which meet its contract", "real coordinates, any choice of eigenvectors", [T+": rotation_from_matrix"])
p("C159","Scaling found from its matrix",
  "scale_from_matrix of a matrix of scale_matrix, with a factor which is one or differs from one by at least 1e-8, raises no exception. scale_matrix of the result is the matrix; a uniform scaling other than the identity gives its factor, its origin and no direction; a scaling along a direction gives its factor and a direction. The only other outcome is an origin without finite coordinates, when the last eigenvector of eigenvalue one is a direction, which does not happen for a uniform scaling other than the identity.",
  "all factors, origins, directions, all answers of the eigenvalue routine which meet its contract", "real coordinates, any choice of eigenvectors", [T+": scale_from_matrix"])
p("C160","Projection found from its matrix",
  "projection_from_matrix of a parallel projection raises no exception and projection_matrix of its result is the matrix. For a perspective projection of which the depth of the perspective point is more than 1e-8 (and for true projections differs from one by at least 1e-8; for pseudo projections when the last eigenvalue given is not minus one) it gives the normal, the perspective point and a point of the plane, so that projection_matrix of the result is the matrix; there are no numbers only when the plane goes through the origin or when the eigenvector used is a direction. A true perspective projection of depth one whose plane is not near the origin raises ValueError. A pseudo projection for which the last eigenvalue given is minus one yields a point which is not on the plane, unless the depth of the perspective point is minus one.",
  "all points, normals, directions and perspective points, all answers of the eigenvalue routine which meet its contract", "real coordinates, any choice and order of eigenvectors", [T+": projection_from_matrix"])
p("C161","Shear found from its matrix",
  "shear_from_matrix of a matrix of shear_matrix whose direction is orthogonal to its normal raises no exception; the angle it gives is in ]0, pi/2[, direction and normal have norm one, and shear_matrix of angle, direction, point and normal is the matrix. There are no numbers only for a null shear, for eigenvectors which are all parallel, or when the last eigenvector of eigenvalue one is a direction.",
  "all angles, directions, points and normals, all answers of the eigenvalue routine which meet its contract", "real coordinates, any choice of eigenvectors", [T+": shear_from_matrix"])
SK = "multimodal/lib/sklearn_utils.py"
p("C162","Entropy of density estimates",
  "kde_entropy_gaussian_1d returns the integral by trapezoids of -p log(p + 1e-14) for the values p of the density estimate of C106; it is at most the entropy of the mass found by trapezoids (between one half and one) spread evenly, and at least the one of a single bin. It does not depend on the order of samples, on repeating all of them or on moving all of them. Errors are those of the estimate. kde_entropy_gaussian_2d raises TypeError for all arguments, as an argument is missing in the call it makes.",
  "all samples with at least two distinct values, all widths and numbers of bins", "real samples", [K1+": kde_entropy_gaussian_1d", K2+": kde_entropy_gaussian_2d"])
p("C163","Divergence of density estimates in two dimensions",
  "kde_KL_divergence_2d returns minus the double integral by trapezoids, on a grid which covers all samples, of p log((p + 1e-14) / (q + 1e-14)) for the estimates p and q of both samples; exchanging the steps of the two integrations, as the code does, has no effect. It is zero for equal samples, and negative for some others. Without samples or with fewer than two bins it raises ValueError; with a null width, ZeroDivisionError.",
  "all samples which span a rectangle, all widths and numbers of bins", "real samples", [K2+": kde_KL_divergence_2d"])
p("C164","Smoothed histograms of angles and velocities",
  "db_to_binned_hist_matrix gives a line for each record and in it, for each degree of freedom, the values line by line of the density estimate of its pairs of angles and velocities (brought into the bounds given, of widths relative to the bounds) on a grid of s by s points, s being the integer part of the square root of the number of bins: s * s values per degree of freedom, none negative, of mass positive and at most one. With fewer than four bins it raises ValueError; when all angles or all velocities are equal, IndexError; with a null relative width, ZeroDivisionError.",
  "all lists of records which are not empty, all bounds, widths and numbers of bins", "any number of records, samples and degrees of freedom", [AH+": db_to_binned_hist_matrix", K2+": kde2d_from_cut_data"])
p("C165","Checks of arrays",
  "assert_all_finite raises ValueError exactly on data of a type of floats with an infinity or nan, although sums may overflow. array2d refuses sparse matrices with TypeError and else gives at least two dimensions (a vector becomes one line), the same values, the type and order asked for; with copy, the result still shares the memory of a vector, a number or an np.matrix of the right type and order, and of nothing else; the array given itself is returned exactly without copy, when it has two dimensions, is no np.matrix and has the type and order asked for. atleast2d_or_csr keeps sparse matrices sparse, with the same values at the same positions in CSR format, and raises ValueError exactly when an infinity or nan is left. safe_sparse_dot is the product of matrices for all combinations of sparse and dense ones; the result is sparse when both are and dense_output is not set.",
  "all arrays and sparse matrices, types, orders, all ways in which sums overflow", "any values, any conversion between types", [SK+": assert_all_finite, array2d, atleast2d_or_csr, safe_sparse_dot"])
p("C166","Printed results",
  "get_stats gives the average and the standard deviation of the scores of a key over the runs (nan without runs or with a nan score), and raises TypeError when a run among others has none. print_result_table of TwoModalitiesExperiment prints five lines of header, then for each order of the first two modalities and each comparison one line with both names and the statistics of exactly this comparison for each metric; all lines have 83 characters when names and results have at most 13, except the second which has 82. A run of the two modality sample ends with this table. With fewer than two modalities, it prints five lines and raises IndexError. The table of ThreeModalitiesExperiment is never printed: after the log is saved and five lines printed, the sample raises TypeError (ValueError in python 2). print_result shows the statistics of a key after the text given, or after the key without text; print_all_results prints one line for each result, in the order in which the set of results is read.",
  "all experiments, logs, scores and numbers of runs, all ways to write a number", "any log, any number of runs and modalities", [X+": TwoModalitiesExperiment.print_result_table, ThreeModalitiesExperiment.print_result_table", LG+": get_stats, print_result, print_all_results", "samples/two_modalities.py", "samples/three_modalities.py"])
p("C167","Downloads and default files of datasets",
  "With the configuration of local.py, directories which exist, an answer of the server for each file and either overwrite or no file in the way, the download functions of choreo2, acorns and objects write exactly the description and feature files which the functions load, load_features and default_db_file of the same module then read by default; all other files are unchanged. The script download_dbs never ends normally: it calls the download of objects without its required argument, raises TypeError and never writes the database of objects, but has written the choreography and the first year of ACORNS when the server answers.",
  "all configurations made of directories, all states of the file system, all answers of the server", "any home directory, any files already there, any server", ["multimodal/db/choreo2.py: download_meta_and_features, default_db_file, get_default_feature_file", "multimodal/db/acorns.py: download_meta_and_features, default_acorns_dir", "multimodal/db/objects.py: download_meta_and_features", "multimodal/db/scripts/download_dbs", "multimodal/local.py"])
p("C168","Saved databases of objects",
  "A database of objects with all its matrices, saved in a directory which exists, is loaded as it was, and no other file changes, in whatever order the matrices are written. When a matrix by frame has not been computed, save raises TypeError after writing the description, and the result cannot be loaded (KeyError). The script parse_objects does nothing exactly when a file or directory named as the database without extension exists; otherwise, whether the database exists or not, it is replaced by the one built from the source, which objects.load then reads, or nothing changes if it cannot be built. With the names of this script the default labels of the loader are those of objects 1 to 10.",
  "all databases, directories, files and orders of dictionaries", "any database, any previous content of files", [O+": ObjectDB.save, ObjectDB.load", "multimodal/db/objects.py: load, DEFAULT_LABELS", "multimodal/db/scripts/parse_objects"])
p("C169","Features of the ACORNS database",
  "When the script build_acorns_features ends, for each year and speaker, with or without blacklist, load_features gives one line by record of the database loaded with the same blacklist, in the same order, made from the sound file of this record with the codebooks of VCTK, and load_features_and_labels gives the tags of the same records; only feature files have changed. It ends exactly when codebooks and databases can be read, every speaker has a record and the features of every record can be computed; a speaker without records stops it with ValueError, the files of the speakers before being written. The blacklist removes record 176 of the second speaker of year 1 and nothing else. A negative speaker is refused by TypeError; the speaker after the last is accepted. The codebooks of ACORNS are made from the sounds of all records of both years in order.",
  "all databases, codebooks, file systems and computations of features", "any number of speakers and records", ["multimodal/db/acorns.py: load, load_features, load_features_and_labels, check_speaker, build_acorns_codebook", "multimodal/db/scripts/build_acorns_features", S+": Record.get_audio_path"])
p("C170","Building the features of the second choreography",
  "build_features raises ValueError when the feature file exists and force is false; errors in reading the database or computing features leave all files unchanged. Otherwise it writes the features, in a file whose name gets .npz if it has not this extension (the guard is on the name as given), and changes nothing else; load_features reads them from this file, and load_features_and_labels gives them with the labels of the database if there is one line by record, and raises AssertionError otherwise. With db_to_VQ_hist_matrix in python 3 it always fails without writing.",
  "all databases, file systems, file names and computations of features", "any file system, any database", ["multimodal/db/choreo2.py: build_features, load_features, load_features_and_labels"])
p("C171","From corpora to codebooks",
  "When the speaker file and the directories of the VCTK corpus can be read, the script parse_vctk writes the description of the corpus in the default file and changes nothing else; if each utterance has a sound, vctk.load then gives the same speakers and the codebooks of build_vctk_codebook are made from the sound of each utterance, in root/wav48/p<speaker>/, once each; if a speaker with several utterances has one without sound it raises TypeError. When both years of ACORNS can be read, parse_acorns writes both descriptions and nothing else, and acorns.load gives for each year the same tags, speakers and records up to the order of the records of a speaker; if the second year cannot be read the first stays written. build_codebooks_from_list_of_wav succeeds exactly when all sounds can be read, there is one at least, three sizes are given and the three quantisations succeed; codebook j is computed, with size j, from all frames of stream j (MFCC, first and second derivative) of all sounds in order. After the script build_codebook the file vctk_codebook.mat, read by build_acorns_features, holds the codebooks and nothing else has changed; with them wav2hac gives 110000 values for each sound which can be read.",
  "all corpora, file systems, sounds, feature extractions and quantisations", "any corpus; the sounds are not distributed with the tests", ["multimodal/db/vctk.py", "multimodal/features/hac.py: build_codebooks_from_list_of_wav, wav2hac", "multimodal/db/scripts/parse_vctk", "multimodal/db/scripts/parse_acorns", "multimodal/db/scripts/build_codebook", VC+": VctkDB.from_db_root", AC+": AcornsDB.from_ACORNS_root"])
p("C172","Axes without chart junk",
  "remove_chartjunk with names of spines hides exactly these spines and makes the others thin, removes tick marks of axes which are not logarithmic, keeps those of a logarithmic axis by a spine which is kept, and changes neither ticks, labels nor limits; a grid is asked exactly for the axes given when they are made of x and y, otherwise AssertionError is raised. With any value of ticklabels it raises TypeError when all this is done, so labels of ticks are never removed. A name which is not that of a spine raises KeyError once the spines before it are hidden, and nothing else changes. A second call with the same spines changes nothing when a logarithmic axis keeps at most one of its spines.",
  "all axes, spines, grids, values of ticklabels and orders of sets", "any list of spines; no test of plots", [LP+": remove_chartjunk"])
p("C173","Plot helpers act on one axes",
  "plot, boxplot and pcolormesh draw on the axes given by ax, or on the current axes, and change no other axes; they give to matplotlib all arguments but those they use, with defaults only for those which are missing (width of lines 0.75, width of boxes 0.15, colour map from data). boxplot replaces labels of the horizontal axis exactly when they are given; pcolormesh puts labels at the middle of cells, makes limits those of the matrix and hides all spines; the default colour map depends only on the signs of the data. legend acts on the axes given, on the figure given when the key ax is missing (not when it is None), or on the current axes, and refuses by TypeError the arguments it sets itself. get_n_colors gives n colours, at equal distances, all different when the map has no colour twice.",
  "all axes, arguments, matrices and colour maps", "any combination of arguments; no test of plots", [LP+": plot, legend, boxplot, pcolormesh, cmap_from_data, get_n_colors"])
p("C174","Records as XML",
  "Record.getDom succeeds exactly when the record has a sound and a transcription and its tags are those of the database (TypeError without sound or transcription); the element then has the style as attribute and one child for the sound, one for the transcription and one for each tag, in order, with its name. Two records of a database without a tag twice which are shown by the same element have the same sound, transcription, style and tags.",
  "all databases and records", "any record; no test of XML output", [S+": Record.getDom"])
p("C175","Sample experiments complete",
  "The scripts icdl2013.py and image_sound.py take --debug into account exactly when it is the first argument. When databases and features can be read, features have a row by record (the second speaker of ACORNS without record 176; objects with one of the ten default names), both modalities have ten labels with two samples of each at least, and the learner can be trained and transforms, the script completes without error, whatever the order of dictionaries and of shuffles, with ten runs, prints the table of results and writes no file. When the numbers of labels differ, or features of motions do not have a row by record, icdl2013.py raises AssertionError before any run, prints nothing and writes nothing.",
  "all data, labels, orders, shuffles, learners and arguments", "whole experiments take hours and need the datasets", ["samples/icdl2013.py", "samples/image_sound.py", X+": MultimodalExperiment.run"])
p("C176","Equality of loggers",
  "Comparing two loggers whose values are not arrays never fails. The comparison is True exactly when both have the same file name, the same global values, the same values in each run in order, and the same sets of keys of runs and of results, so that it is an equivalence. A logger is never equal to an object which is not a logger. A logger saved then loaded with its file name is found equal to the original exactly when it has no key of results and all its arrays have a single value. The comparison raises ValueError when one array has several values and none is empty (file name which does not end with .npz, or no array).",
  "all loggers, values, orders of dictionaries", "tests compare loggers with numbers or None only", [LG+": Logger.__eq__", LG+": Logger.load"])
p("C177","Files of parameters",
  "save_serialized_parameters followed by load_from_serialized on the same path gives an experiment with the same modalities, loaders (up to the order of sets of labels), parameters, coefficients, run mode and debug flag; other files give what they gave before. load_from_serialized raises IOError without file, KeyError when modalities or loaders are missing, ValueError when the first data set is unknown or its description is not a pair. After the action prepare of the launcher the configuration file of each job gives the experiment of this name, and other files are unchanged.",
  "all experiments, paths, file systems, orders of sets, plans of jobs with distinct files", "tests write a single file", [X+": MultimodalExperiment.save_serialized_parameters", X+": MultimodalExperiment.load_from_serialized", "samples/launcher.py"])
p("C178","Figures of boxes",
  "plot_boxes shows one panel for each pair of modalities, titled with their names, and a last panel for the experiment with all modalities; each panel has exactly one box for each direction between two of its modalities, with the cosine scores of this direction in the matching log and the colour of this direction; panels do not overlap, only the first has the label of ordinates, ordinates are shared, and the legend names each direction of the last panel. plot_boxes_by_feats has one panel by set of features, of equal widths, with boxes for both directions between images and sounds, and a legend whose colours are right for all panels. plot_boxes_all_mods shows one box for each combination and three legends of the same length which name all of them, and raises ValueError unless the number of modalities is a multiple of three. Without log of pairs or of features UnboundLocalError is raised; a pair with an unknown modality raises KeyError, whatever pairs follow.",
  "all logs, numbers of pairs and sets of features", "no test of figures; any number of panels", [PL+": plot_boxes, plot_boxes_one_exp, plot_boxes_by_feats, plot_boxes_all_mods"])
p("C179","Figures of curves",
  "plot_k_graphs draws, for each pair of modalities, both directions: a point for each k with the mean and the deviation of the scores of the log for this k, in the colour of the direction. plot_2k_graphs draws them for the first two dictionaries of logs, with solid and dashed lines, ignores other dictionaries, and gives each curve of the first one its name in the legend. In both the argument metric has no effect: scores are always those of the first metric. Labels of curves are representations of lists. Without dictionary plot_2k_graphs raises IndexError.",
  "all dictionaries of logs with a log for each k and as many scores in each, all metrics", "no test of figures; any number of values of k", [PL+": plot_one_curve, plot_k_graphs, plot_2k_graphs"])
p("C180","From saved logs to figures",
  "When every job of the launcher has saved a log with its modalities and its scores, the action plot makes its four figures without error. For each pair of modalities, each direction and each k, the solid curve has the mean and the deviation of the scores of exactly all runs with these two modalities and this k, and the dashed curve those of all runs with three modalities and this k. The boxes of pairs, of three modalities, of features and of combinations have exactly the cosine scores of all runs with k = 50 of the matching experiments.",
  "all plans with k = 50 and a positive number of runs, all logs and directories", "hundreds of experiments of several hours each", [LA+": collect_results, collect_results3, collect_results_image", LA+": action plot", PL])
p("C181","Command line of the launcher",
  "Only the action run starts the pool, once; the status is printed until the end by run (with processes or --watch) and by status with --watch, once by status otherwise; prepare writes configurations, plot makes figures, resume does nothing. Without option the launcher is torque exactly when qsub is found. Figures are written only with --save, in four different files of the chosen directory. Watching prints one line for each turn, with the status and counts read during this turn, and stops after the first turn whose first reading is at the end; it never stops when there is none; once the pool stays at the end it stops within a turn and its last line shows the final counts.",
  "all options, directories, formats and sequences of readings of the pool", "any number of turns and of readings", [LA+": get_stats, print_refreshed_stats", LA])
p("C182","From prepared jobs to figures",
  "A job of the launcher which succeeds saves a log with its modalities and one run, in which every score of its evaluation is a number, under the names the figures look for. When all jobs, run in any order on the parameters saved by the action prepare, succeed, then the action plot draws its four figures without error and their curves and boxes show exactly the scores which the jobs computed: those of all runs of the matching experiments, once each.",
  "all plans with k = 50, orders of jobs, learners, data, labels, metrics and initial disks", "hundreds of experiments of several hours each; any order of jobs", [LA+": actions prepare, run, plot", "samples/two_modalities.py", "samples/three_modalities.py", X+": run"])
p("C183","Recognition along sentences",
  "After a successful single run, the sliding evaluation script cuts the sounds of all pairings, one after another in the order of the pairings (the first ten in debug mode), into windows of half a second each tenth of a second; it stores in the log of the run, under sliding_distances, the matrix whose row i and column j is the distance between the internal coefficients of window i and those of example j, computed by the learner which this run trained on the samples stored under train, and under label_ex the labels of the examples. The rest of the log is unchanged, and the saved file gives back this log. When the run fails the script fails in the same way, with the log which it left.",
  "all sounds at one rate lasting half a second or more in total, records, pairings, learners, measures, metrics, data and labels", "hours of sound and a learnt dictionary are needed; equality of windows, pairings and rows for all sentences cannot be enumerated", ["samples/image_sound_eval_sliding.py:50-132", X+": run", LG+": store, save"])
p("C184","Exports of motion databases in directories",
  "Exporting to an existing directory under a name without slash: type npz writes a JSON and a npz file there and nothing else, and loading the JSON file gives the database back (descriptions as JSON gives them back); type txt creates two directories if needed, writes the meta data, then the arrays of the records before the first one which is not two-dimensional (ValueError) or all of them; type mat writes one file, with descriptions only if there are some; other types raise ValueError and a missing destination IOError, without any change. A name with a relative directory is exported but its data cannot be loaded back, an absolute name can. Loading with verbose raises ValueError exactly for databases without records, and otherwise prints their number and the shape of the first one.",
  "all databases, destinations, names, types and initial disks", "any names, directories and existing files; failures in the middle of an export", ["multimodal/db/models/kinect_motion.py: export, create_text_subdirs, load_from_npz, print_info, get_data_dimension, add, size"])
p("C185","Parameters of MFCC",
  "The coefficients of a sound are as many as the argument n_mfcc tells, 13 without it (20 in a direct call of mfcc), and are the products of the DCT with the log spectrogram of the sound at its own rate, computed with all other keyword arguments; no call changes the defaults of later calls. Arguments named data, sr or y raise TypeError, in features as in codebooks. Codebook j is made with size j of the frames of stream j (coefficients, first and second derivatives, with the arguments given) of all sounds in order. Codebooks fit the features of every sound when both ask for the same number of coefficients: there is then one count per lag and pair of centroids of each codebook; otherwise ValueError.",
  "all sounds, rates, keyword arguments, lists of files, numbers of centroids and positive lags", "any combination of keyword arguments passed through three functions; needs librosa and corpora", ["multimodal/features/hac.py: complete_mfcc_params, mfcc, hac, wav2hac, build_codebooks_from_list_of_wav"])
p("C186","What is shown of the recognition along sentences",
  "Applied to the saved log of an evaluation along sentences (C183) which was not in debug mode, the plot script shows each window of half a second of the sentences of all samples one after another at its own times, with the opposite of the distances between its coefficients and those of the examples; the curves are labelled by the labels of the sounds paired with the examples, and the windows of records are those of the sounds of the pairings one after another; the sentences shown as test sentences are those of the samples at the positions of the test in the list of all samples (see C137). The log of an evaluation in debug mode, which only uses ten samples, cannot be plotted when all samples give a tenth of a second more: the script raises IndexError.",
  "all sounds at one rate lasting twenty seconds or more in total, records, pairings, learners, measures, metrics, data and labels", "the two scripts compute the same windows twice from different data, and need hours of sound and trained learners", [PS+": similarities, example_labels, myplot", "samples/image_sound_eval_sliding.py:50-132", PL+": InteractivePlot.__init__", LG+": load"])
p("C187","Annotations and files of plots of sentences",
  "All annotations of a plot are written in the middle of their boundaries at the ordinate which was the upper limit before the first of them, and ordinates are then shown from zero to three hundredths above. With ninety test sentences or more, the plot script writes the transcriptions of the records out of the test, and each of the four annotated sentences in three formats named after its sound up to the first dot, with the plot of this sentence and its annotations, and changes no other file; the test sentences are those of the windows of records which have a test record, in order. With less than ninety test sentences it raises IndexError after writing the transcriptions; when the directory of figures exists without its directory annotated, which is only created with it, it raises IOError and writes no figure.",
  "all logs, records, transcriptions, names of sounds and directories", "exceptional states of the disk and small data sets are never met when the authors run the script", [PL+": ScorePlot.annotate", PL+": plot_one_sentence", PS+": train_trans.txt, ANNOTATIONS"])
p("C188","Norms along an axis",
  "On arrays with at least two dimensions, vector_norm along an axis, given by its number or from the end, has one norm for each index without the axis, that of the values along it, and unit_vector divides each value by the norm of its line, so that lines have norm 1 except null ones, which are nan; without axis there is one norm for all values. For vectors the axis is not looked at, even if there is none; other axes which do not exist raise ValueError. With out, vector_norm writes the same norms and unit_vector the same values, for other data or in place; but for a vector with its only axis, unit_vector copies the vector in out and raises ValueError. When the shape of out is not the right one it is unchanged and ValueError is raised.",
  "all numbers of dimensions, shapes, values and axes", "tests use random arrays of three dimensions, without null lines, and no vector with out", ["multimodal/lib/transformations.py: vector_norm", "multimodal/lib/transformations.py: unit_vector"])
p("C189","Imports of a module over another",
  "_import_module gives the public names of a module which can be imported the values of this module; names which had a value keep it under the name with the prefix, and no other name changes; there is a warning for each public name which had no value and no other. Without prefix nothing is kept nor warned about. When the module cannot be imported no name changes, there is one warning, and None is returned. Warnings are only given when asked for.",
  "all modules, names, global dictionaries, and prefixes which begin with the text to ignore, as by default", "the compiled module which it is made for is not part of the repository", ["multimodal/lib/transformations.py: _import_module"])
p("C190","Logs saved at the same time",
  "Several processes save logs on the same disk at the same time, each in the order of save, with any order of the writes of all. If the names of files are different, and none ends with .npz when arrays are loaded, at any moment what is loaded from the file of a log only depends on what this log has written: a log which has been saved is loaded with its values, and the file of a log which has written nothing is loaded as before. So the figures of the launcher after all its jobs were run at the same time show the scores of their logs. Two logs named a and a.npz, or with the same name, can be mixed.",
  "all logs, names, schedules of writes, moments, initial disks, plans and jobs", "tests run one process; the number of schedules of writes is exponential", ["multimodal/lib/logger.py: Logger.save", "multimodal/lib/logger.py: Logger.load", "samples/launcher.py: main"])
p("C191","Factorization of stored sparse matrices",
  "A csr matrix has sorted columns without duplicates in each row (the canonical format, maybe with stored zeros). fit_transform, fit and transform on it return what the factorization of the matrix which it stands for returns, and error its error; the given matrix only loses its stored zeros. Matrices given by triples, in any order and with duplicates, such as those of the learner, are converted to this format, so that they are factorized as the matrix of their sums. Without this format the claim is false: with columns which are not sorted the quotient divides values of different places, and with two entries at the same place ValueError is raised.",
  "all stored matrices, triples, factorizations, numbers of iterations and tolerances", "whether values of two arrays are at the same places depends on the storage, which equality of matrices does not show", ["multimodal/lib/nmf.py: _special_sparse_dot", "multimodal/lib/nmf.py: KLdivNMF._Q", "multimodal/lib/nmf.py: KLdivNMF.error", "multimodal/lib/nmf.py: KLdivNMF.fit_transform", "multimodal/lib/sklearn_utils.py: atleast2d_or_csr", "multimodal/lib/sklearn_utils.py: safe_sparse_dot"])
p("C192","Sampled windows with rounded operations",
  "Each operation on times is rounded to the nearest double (times up to 10^6 seconds, rates from 1 to 10^6 Hz). The index found for the end of a range is the last boundary of samples before it, and the one found for its start the first boundary after it, up to a tolerance between 9 and 11 nanoseconds. So get_subwindow of an array window selects the samples whose slots are in the range up to this tolerance; cropping at boundaries as they are computed selects exactly the samples between them, for any number of crops of crops, and wav windows select the same samples in two steps (12 nanoseconds), or raise TimeOutOfBound when the range ends before the first boundary. A wav window moved twice may not be croppable to its own range: its end is not the one of its copy.",
  "all roundings which are monotone, idempotent, odd, exact on small integers, with the relative error of doubles (rounding to nearest even is one); all windows, rates, ranges", "errors of rounding depend on all bits of times; tests use round numbers", ["multimodal/lib/window.py: _to_approx_int", "multimodal/lib/window.py: SampledTimeWindow", "multimodal/lib/window.py: ArrayTimeWindow.get_subwindow", "multimodal/lib/window.py: WavFileTimeWindow.get_subwindow", "multimodal/lib/window.py: TimeWindow.move"])
p("C193","Concatenated files with rounded operations",
  "With rounded operations concat_from_list_of_wavs raises nothing for files with samples: each window is the one of its file and starts at the sum of the lengths before it, up to a nanosecond for each. Every float in the range of the concatenation is in the window which get_subwindow_at finds for it. get_subwindow between two floats at least one sample apart gives the windows of the files in the range, with the first one cropped at its start and the last one at its end; only if both floats are in the same file and the second is less than one nanosecond before its end may TimeOutOfBound be raised, as for a file of 0.8 seconds cropped from 0.1 to 0.8.",
  "all roundings as in C192, lists of files, starts, ranges", "the failure needs particular sums, where the end computed from the cropped start is one rounding below the end of the file", ["multimodal/lib/window.py: concat_from_list_of_wavs", "multimodal/lib/window.py: ConcatTimeWindow.align", "multimodal/lib/window.py: ConcatTimeWindow.__init__", "multimodal/lib/window.py: ConcatTimeWindow.get_subwindow", "multimodal/lib/window.py: ConcatTimeWindow.get_subwindow_at", "multimodal/lib/window.py: WavFileTimeWindow._delay_start", "multimodal/lib/window.py: WavFileTimeWindow._stop_at"])
p("C194","Sliding windows and frames with rounded operations",
  "With rounded operations slider gives all full windows in the range and no other, up to 12 nanoseconds: starts are at multiples of the shift, ends at the width, and no bound is outside of the range. concat_of_frames gives consecutive frames from the start to the end, the last one shorter, when no frame starts within 2 nanoseconds of the end minus the tolerance; otherwise ValueError may be raised, as from 0 to 0.75000001 at 20 Hz. Sliding windows over concatenated files can be cropped from them, unless a window is in one file and ends less than one nanosecond before its end: then TimeOutOfBound may be raised, as by the last window over files of 0.1 and 1.2 seconds.",
  "all roundings as in C192, ranges, widths, shifts, rates, lists of files", "the cases which fail are at roundings of particular sums", ["multimodal/lib/window.py: _arange", "multimodal/lib/window.py: _snap_above", "multimodal/lib/window.py: slider", "multimodal/lib/window.py: concat_of_frames", "multimodal/lib/window.py: ConcatTimeWindow.__init__", "multimodal/lib/window.py: ConcatTimeWindow.get_subwindow"])
p("C195","min_weight_perm ends whatever the rounding",
  "Whatever is done to the results of the sums and differences of min_weight_perm (doubles, or even any function applied to each of them), the call ends without exception on each matrix which is not empty, within 2n + 1 iterations of each loop: the result is a permutation for a square matrix, distinct columns for fewer rows than columns, and each column exactly once (None for other rows) for more rows.",
  "all functions from rationals to rationals in place of the rounding, all matrices", "the loops stop on exact comparisons of floats (slack == 0, slacks == alpha): tests see a few matrices only, where errors of rounding do not meet these comparisons", ["multimodal/lib/munkres.py: AlternateTree.find_augmenting_path", "multimodal/lib/munkres.py: BipartiteGraph.augment_matching", "multimodal/lib/munkres.py: BipartiteGraph.max_weight_matching", "multimodal/lib/munkres.py: min_weight_perm"])
p("C196","Optimality of min_weight_perm with rounded operations",
  "With doubles min_weight_perm is optimal on matrices of integers up to 2^53 / (12n + 8), and on such matrices multiplied by a power of two (with 1 among the multiples for rectangular ones). On other matrices it is nearly optimal: up to ten rows and columns and with entries up to V, its result is at most n (6 (n+1)^n + 2n^2 + 2) (n+1) V / 2^48 above each other choice (V + 2 in place of V for rectangular ones). It is not always optimal: on [[0.8, 0.7], [0.3, 0.2]] the result is 2^-53 above the other permutation, and with entries 2^60 beside 0 and 1 it can be 2 above.",
  "all roundings as in C192, all matrices", "the error depends on all bits of the entries and accumulates over updates of labels; the reference by brute force compares sums which are rounded themselves", ["multimodal/lib/munkres.py: BipartiteGraph.slack", "multimodal/lib/munkres.py: BipartiteGraph.slack_matrix", "multimodal/lib/munkres.py: AlternateTree.find_augmenting_path", "multimodal/lib/munkres.py: _min_weight_perm_square", "multimodal/lib/munkres.py: min_weight_perm"])
p("C197","Fits and transforms stay finite",
  "With doubles, whatever the order in which libraries add the terms of sums and of matrix products (fused or not, products with zero skipped or not), fit_transform and transform on data between 0 and 2^400 with at most 2^53 samples, features, numbers and components compute no infinity nor NaN through any number of iterations: there is no overflow and no division by zero, coefficients are not negative, components are between 0 and 1, logarithms are taken of positive numbers and all errors are finite. Without the bound this fails: one update on data [[1, 2^1000]] with component [1, 0] gives a coefficient which is not finite.",
  "all orders of additions, data, random numbers, options and numbers of iterations", "overflow needs an invariant on sizes through all iterations, and the order of additions depends on the libraries and the machine", ["multimodal/lib/nmf.py: KLdivNMF.fit_transform", "multimodal/lib/nmf.py: KLdivNMF.transform", "multimodal/lib/nmf.py: KLdivNMF.error", "multimodal/lib/nmf.py: KLdivNMF._Q", "multimodal/lib/nmf.py: KLdivNMF._updated_W", "multimodal/lib/nmf.py: KLdivNMF._updated_H", "multimodal/lib/array_utils.py: normalize_sum", "multimodal/lib/metrics.py: generalized_KL"])
p("C198","Zeros, errors and sums of components with doubles",
  "With doubles and for any order of additions: coefficients and components which are zero stay zero; samples which are zero get zero coefficients; the errors recorded by fit_transform are at most max_iter and do not increase when tol >= 0; after fit_transform on at most 2^20 features each component sums (exactly) to at most 1 + 2^-32. Positive numbers may become zero: the coefficient of 2^-1074 for the component 1/2.",
  "all orders of additions, data, random numbers, options and numbers of iterations", "errors of rounding accumulate over features and iterations in an order chosen by libraries", ["multimodal/lib/nmf.py: KLdivNMF.fit_transform", "multimodal/lib/nmf.py: KLdivNMF._update", "multimodal/lib/nmf.py: KLdivNMF._updated_H", "multimodal/lib/array_utils.py: normalize_sum"])
p("C199","Nearest neighbours and frobenius with doubles",
  "With doubles and whatever the order of the additions of sums, classify_NN gives to each sample the label of the first example whose distance is NaN, or else of the first of the examples at the least computed distance. frobenius of rows of doubles is never NaN nor negative, does not depend on the order of the rows, is 0 for rows whose entries differ by 2^-538 at most and only for rows whose entries differ by less than 2^-537: a sample which is a copy of an example gets the label of an example which differs by less than this on each entry. For at most 2^50 features whose differences are 0 or from 2^-500 to 2^480, the relative error of a distance is at most (n+4)/2^52, and the label is that of the exact nearest neighbour when examples with other labels are farther by more than the errors. Otherwise labels may be wrong: with 2^600 the distances overflow and the first example is found; a difference of 2^-538 counts as none.",
  "all orders of additions, rows, labels and numbers of features", "errors depend on the order of additions chosen by the library, and overflow and underflow only occur for extreme numbers", ["multimodal/evaluation.py: classify_NN", "multimodal/evaluation.py: all_distances", "multimodal/evaluation.py: dists_to_found_labels", "multimodal/lib/metrics.py: frobenius"])
p("C200","Cosine similarities with doubles",
  "With doubles and whatever the order of additions: cosine_similarity does not depend on the order of the two rows; for at most 2^48 features which are 0 or of absolute value from 2^-120 to 2^120 it is finite and differs from the exact similarity (0 for a row of zeros) by at most (3n+8)/2^52; for at most 2^53 features of absolute value at most 2^200, however small, it is never NaN, it is not negative if no feature is, it is exactly 1 between a row with an entry of absolute value at least 2^-200 and itself, and exactly 0 between rows which have no entry in common; with cosine_diff a sample gets the label of the example of largest exact similarity when the similarities with examples with other labels are smaller by more than twice this error. Without this margin it is false: the similarity of (0.2, 0.3) with (0.6, 0.9) is 1 + 2^-52, so that a copy of the first example gets the label of the second; for entries 2^-300 a similarity is infinite, and for 2^600 it is NaN, so that a sample gets the label of a row of the opposite direction.",
  "all orders of additions, rows, labels and numbers of features", "a few values round up above 1; errors depend on the order of additions", ["multimodal/lib/metrics.py: cosine_similarity", "multimodal/lib/metrics.py: cosine_diff", "multimodal/evaluation.py: classify_NN"])
p("C201","Divergences with doubles",
  "With doubles, a logarithm within 4 units in the last place, and whatever the order of additions: sym_kl_div does not depend on the order of the two rows; for entries from 0 to 2^400, kl_div, rev_kl_div and sym_kl_div of a row and itself are exactly 0; for at most 2^48 features they are finite, and kl_div differs from the exact divergence (with the constant 1e-8) by at most (n+128)/2^51 times the sum of x + y + x |log((x+1e-8)/(y+1e-8))|, plus n/2^1072; hence it is at least -n 1e-8 up to this error, and the label found by classify_NN is that of the exact least divergence when the others are larger by more than the errors. Computed divergences may be negative: a sample 1e-8 which is a copy of an example gets the label of the example 0.",
  "all orders of additions, logarithms within the contract, rows, labels and numbers of features", "errors depend on the order of additions and on the logarithm of the library", ["multimodal/lib/metrics.py: generalized_KL", "multimodal/lib/metrics.py: kl_div", "multimodal/lib/metrics.py: rev_kl_div", "multimodal/lib/metrics.py: sym_kl_div", "multimodal/evaluation.py: classify_NN"])
p("C202","Scores with doubles",
  "found_labels_to_score gives the double nearest to the number of agreements over the number of compared labels, and NaN without labels. For at most 2^52 labels, scores of lists of the same length are in the order of the numbers of agreements; a score is 1 exactly when all labels are found and 0 exactly when none is. Scores of lists of lengths n and n' with n n' <= 2^52 are in the order of the fractions and equal only if these are.",
  "all lists of labels within the bounds", "the claim is about all pairs of fractions", ["multimodal/evaluation.py: found_labels_to_score"])
p("C203","Normalization of features with doubles",
  "With doubles and whatever the order of additions and the storage: on data which are not negative, normalize_features keeps exactly the columns which are not zero, so that dense and sparse representations of the same data, with or without stored zeros, give the same columns; for at most 2^48 rows of entries at most 2^900 the entries of the result are from 0 to 1, zero where the data are, differ from the quotient by the exact sum of the column by at most (n+1)/2^51 times this quotient plus 2^-1075, and the sum of each column differs from 1 by at most (n+1)/2^51 + n/2^1075. Larger entries may overflow, which turns a column into zeros; and with entries of both signs whether a column is kept depends on the order of additions, so that the results for dense and sparse data may have different numbers of columns.",
  "all orders of additions, matrices and storages within the bounds", "the order of additions depends on the library and the storage; cancellation and overflow only occur for special columns", ["multimodal/lib/array_utils.py: normalize_features"])
p("C204","Downloads in chosen directories and downloads which fail",
  "The download functions of choreo2, acorns and objects retrieve their files one after the other, in the directories given as arguments or else in those of the configuration, up to the first file whose directory does not exist or which already exists without overwrite (IOError) or for which the server fails (its error): files before are exactly those sent by the server, no other file is changed, and the functions end normally exactly when no file fails. Features of choreo2 and databases of objects are then read from the chosen directories when loading functions are told their paths. Without feat-dir the description and data of choreo2 are written before the error; without db-dir the download of objects fails even with a directory, whereas others do not read the configuration if all directories are given. For ACORNS, year 0 is not refused and has the ten speakers of year 2, and for years from 3 the description is written before IndexError. parse_vctk and parse_acorns with a directory write there the same descriptions as without, and nothing else, and vctk.load and acorns.load read them from there.",
  "all servers, file systems, configurations, directories and years", "partial downloads depend on which of many files fails", ["multimodal/db/choreo2.py: download_meta, download, download_with_features", "multimodal/db/acorns.py: download_meta_and_features", "multimodal/db/objects.py: download_meta_and_features", "multimodal/lib/net.py: check_destination_path", "multimodal/db/scripts/parse_vctk", "multimodal/db/scripts/parse_acorns"])
p("C205","Recognition of labels with doubles",
  "With activations and distances that are floats, infinities or NaN: evaluate_label_reco takes as the best activation of a row the first NaN if there is one and else the first of the greatest, raises AssertionError if the numbers of rows and labels differ, and else gives the double nearest to the fraction of rows whose best activation is that of their label (NaN without rows). compare_labels_threshold recognises a row exactly when the true labels are those whose activation is not NaN and is at least the threshold. compare_labels_given_nb, whichever order argsort gives to ties, recognises a row when each true label is above each false one and does not when a false label is above a true one, labels at NaN being below all others, -inf included. Their scores are the doubles nearest to the fractions of recognised rows. evaluate_NN_label is the score of the labels found by classify_NN, hence the double nearest to the fraction of samples whose label is that of the nearest example; with frobenius, cosine_diff and kl_div it is exactly 1.0 when each sample has an example of its label nearer than all those with other labels by more than rounding errors.",
  "all arrays of doubles, labels, thresholds and orders of additions and of ties", "the effects of NaN, ties and rounding on scores depend on values that tests do not enumerate", ["multimodal/evaluation.py: evaluate_label_reco, compare_labels_threshold, score_labels_threshold, compare_labels_given_nb, score_labels_given_nb, scores_from_dists, evaluate_NN_label"])
p("C206","Entropy with doubles",
  "With numbers rounded to doubles and sums in any order, entropy of n numbers that are not negative (at most 2^400 and zeros included) is a finite double whose distance to the exact entropy is at most (n+16)/2^52 times the sum of the |x log x|, plus n/2^1074. When they are at most 1 the computed entropy is never negative, and is zero exactly when each number is 0 or 1. When their exact sum is 1 it is at most (1+(n+16)/2^52) log n + n/2^1074. A NaN, -inf or negative number gives NaN.",
  "all numbers of entries up to 2^48, all doubles and orders of additions", "rounding errors and their signs depend on values and on the order of additions", ["multimodal/lib/metrics.py: entropy"])
p("C207","Mutual information and conditional entropy with doubles",
  "With numbers rounded to doubles and sums in any order, mutual_information and conditional_entropy accept tables of doubles that are not negative when their exact total is within 2^-19 of 1, and raise AssertionError when it is farther than 2^-15 and entries are at most 2^400, conditional_entropy raising ValueError for axes other than -2, -1, 0 and 1. conditional_entropy is then finite, within an explicit bound of the exact difference of entropies, given rows for axes 0 and -2 and given columns for axes 1 and -1; for exact joint probabilities it is between 0 and the entropy of the other variable up to a bound that depends on the size of the table only. mutual_information is finite and within an explicit bound of the exact one when each entry is 0 or at least 2^-500; for exact joint probabilities it is between 0 and the entropies of both variables up to a bound that depends on the size only. But with a positive entry whose row and column have a total of at most 2^-539, their product is rounded to zero and the mutual information is inf, though the exact one is a finite number.",
  "all tables with n*m up to 2^34 entries, all doubles and orders of additions", "rounding and underflow depend on values and on the order of additions; the table that gives inf has an entry below 2^-539", ["multimodal/lib/metrics.py: mutual_information, conditional_entropy"])
p("C208","Windows are shared objects",
  "move and align change windows in place: ConcatTimeWindow.move moves each window once for each of its occurrences in the list, align returns the list it is given, and no other window changes; for lists of distinct windows the new values are those of C10 and C11. A list in which the same window object occurs twice is never accepted by ConcatTimeWindow, even after align, if its windows last more than the tolerance (though align has then moved them). copy and get_subwindow of a concatenation make new, distinct windows and change nothing that existed, whether they succeed or raise; later moves and alignments of the new windows do not change the old ones, nor conversely. But get_subwindow_at gives the window of the concatenation itself: moving it by more than twice the tolerance makes copy of a concatenation of several windows raise ValueError; the constructor keeps the list, so that a window appended to it later is the last one of the concatenation, without check; and the numpy arrays of copy, to_array_window and get_subwindow of an array window are views: what is written in one is read in the other at the shifted place. The array of to_array_window of a concatenation is new: writing in it changes no window.",
  "all states reached by programs which make, move, align, copy, crop, write and concatenate windows, lists and arrays of any size", "tests compare values of fresh windows; sharing shows only after later changes of another object", ["multimodal/lib/window.py: TimeWindow.move, copy, get_subwindow, to_array_window", "multimodal/lib/window.py: ConcatTimeWindow.__init__, move, align, copy, get_subwindow, get_subwindow_at, to_array_window"])
p("C209","Merged logs share runs",
  "Logger.merge_experiments returns the first log itself, with the run dictionaries (not copies) of all logs in order, and changes no dictionary and no other log, when all logs have the same run keys and the first one is not given twice; when a log has other run keys it raises AssertionError and the first log has kept the runs of the logs before that one. Merging the same logs twice adds the runs of the others twice, and merging a log with itself n times gives its runs 2^n times. store changes the last run of a log in all logs which share this run but the run keys of this log only: a value with a new key stored in the merged log is found in the last run of the last log, whose run keys lack it, and conversely. In programs which do not merge, no runs are shared, and new_run, store, store_result and store_global act on one log as in C70; a failing store changes nothing.",
  "all states of logs and runs at addresses, all lists of logs, and all programs of log operations", "tests merge fresh logs and compare values once; sharing shows only after later stores or failures", ["multimodal/lib/logger.py: Logger.__init__, new_run, store, store_result, store_global, append_exps_from_other, merge_experiments"])
p("C210","Times with steps and rates of any size and sign",
  "A null step, shift or rate raises ZeroDivisionError. With a negative step the helper for regular times returns nothing when right is after left, and otherwise the times at multiples of the step, as many as whole steps fit, and then right itself in any case, so that the last interval may be up to twice as long as the others; with positive steps below twice the tolerance it returns multiples of the step before right, up to less than the tolerance from it, and then right itself. slider with a negative shift returns no window when one fits; otherwise all windows end at t_end, even those which start after it. slider with a positive shift below twice the tolerance gives windows in the interval, of the width up to the tolerance, the last one at the end. concat_of_frames with a negative rate raises ValueError, except for a single frame which goes backwards when t_end is before t_start by one to two periods. Windows of arrays with a negative rate have no times: all sub-windows raise TimeOutOfBound.",
  "all bounds, widths, tolerances, null and negative steps, shifts and rates and all small positive steps", "tests use a few positive steps", ["multimodal/lib/window.py: _arange, slider, concat_of_frames, SampledTimeWindow.__init__, ArrayTimeWindow.get_subwindow"])
p("C211","Linear binning in doubles",
  "get_bins_1d, with each operation rounded, never raises IndexError and keeps all samples: when the bounds are at most 2^40 steps from zero, each grid point is within 23 M 2^-52 of its exact place (M bounds the ends), each bin is within (110 M / step + 4 n) 2^-52 / step of the mean of triangular kernels divided by the step, the sum of bins times the step is within (282 M / step + 12 n) 2^-52 of 1, and the bin which is removed is as small as the error on bins. The grid begins exactly at the lower bound. Bins may be negative, at most by this error, and are for some samples; the removed bin is not always null. Bounds at distance zero raise IndexError. Without rounding this is the exact binning.",
  "all samples, numbers of bins and bounds for steps from 2^-900 to 2^900, up to 2^40 samples, and every rounding to nearest", "the sign of a bin, and the bin of the greatest sample, depend on the last bits of the samples", ["multimodal/lib/kde1d.py: get_bins_1d"])
p("C212","Sizes of smoothed estimates in doubles",
  "gaussian_kde_1d with nb bins returns an estimate of 2 nb - 2 or 2 nb - 1 values (if nb times M / step is at most 2^43), since np.arange with rounded bounds may give one more value of the kernel; both occur with doubles: 0 and 1 in three bins give four values, 0.3 and 0.4 give five. Without rounding there are always 2 nb - 2 values.",
  "all samples, numbers of bins, bounds and roundings to nearest", "tests use bounds for which steps are exact", ["multimodal/lib/kde1d.py: gaussian_kde_1d"])
p("C213","Concatenations of concatenations",
  "ConcatTimeWindows whose elements are ConcatTimeWindows, at any depth, behave as the flat concatenation of the windows of basic classes which they hold: constructors accept a tree exactly when no concatenation is empty and these windows are consecutive; absolute_start and absolute_end are equal; move moves each window by the same delay; copy holds equal windows; get_subwindow(a, b) with a <= b holds the windows of the flat sub-window, or raises the same TimeOutOfBound; to_array_window returns the same samples, exactly when the flat one does; get_subwindow_at returns the element which holds the window found in the flat one; align aligns the windows, if those of each element are. Exceptions, with witnesses: windows of null duration at the end of an element can disappear from a sub-window; bounds in the wrong order raise TimeOutOfBound instead of IndexError; the exception without samples can be another one; align does not close gaps inside elements.",
  "all depths and shapes of trees, and all windows, times and delays; for copies and sub-windows, windows which follow each other exactly, and are not of null duration except the first", "tests concatenate basic windows only; sub-windows of inner concatenations rely on identities of crops to the own bounds of windows", ["multimodal/lib/window.py: ConcatTimeWindow"])
p("C214","Kernel widths which are too small",
  "With exponentials which are null below -T (T is about 745.13 for doubles), gaussian_kde_1d with steps delta and a width h which is not null prints its warning exactly when nb_bins is even and delta^2 / (8 h^2) > T; all 2 nb_bins - 2 values are then nan, with fft and without, and kde_entropy_gaussian_1d and kde_KL_divergence_1d return nan. In other cases all values are numbers, not negative, and of mass 1, and both functions return numbers; values are the ones of exact exponentials when (x_max - x_min)^2 / (8 h^2) <= T; with an odd number of bins and delta^2 / (2 h^2) > T they are the bins themselves, after (nb_bins - 1) / 2 zeros. gaussian_kde_2d prints its warning, and returns nan only, exactly when nb_bins is even and delta_x^2 / (8 h_x^2) + delta_y^2 / (8 h_y^2) > T; otherwise values are numbers, not negative and of mass at most 1. For the histograms of angles and velocities, this is 1 / (2 rel_h (nb_bins - 1))^2 > T.",
  "all samples which are not all equal, widths, numbers of bins from 2, bounds, both convolutions, and all exponentials which are null exactly below a threshold", "tests use wide kernels only; that the outcome depends on the parity of the number of bins is not visible on examples", ["multimodal/lib/kde1d.py: gaussian_kde_1d, kde_entropy_gaussian_1d, kde_KL_divergence_1d", "multimodal/lib/kde2d.py: gaussian_kde_2d"])
p("C215","Recognition of labels with arrays of different shapes",
  "compare_labels_given_nb with two dimensions returns one value for each row of labels: further rows of activations are ignored. Without row of labels it raises ValueError; else it raises IndexError exactly when there are fewer rows of activations than of labels, or when one of the best activations of a row, as many as the sum of its labels, is in a column which labels do not have. Otherwise a row is recognised exactly when its labels are zeros and ones, and the ones are the columns of the best activations; with at least as many columns of labels as of activations nothing is raised, a row with a label beyond the columns of activations is not recognised, and one whose labels are strictly above all others is. One dimension of activations with two of labels raises TypeError, and the contrary IndexError, or ValueError when there is no label. compare_labels_threshold raises exactly when numbers of rows or of columns differ and none of both is 1; a single row or column of either is compared with all of the other.",
  "all activations, integer labels, numbers of rows and columns, orders of ties, and thresholds", "tests compare arrays of the same shape; the same shapes may raise or not according to values", ["multimodal/evaluation.py: compare_labels_given_nb, score_labels_given_nb, compare_labels_threshold, score_labels_threshold"])
p("C216","Weights of matrices which are not square",
  "munkres.weight(perm, w) for any list of n integers and matrix: IndexError when a value is not between -n and n - 1; else ValueError when n is not 1 and the number of rows or of columns is neither n nor 1; otherwise the sum of w[i, perm[i]] where a single row or column stands for all and values may repeat, except with one value, for which it is the sum of the whole matrix. min_weight with two rows or more and another number of columns always raises, although min_weight_perm returns a minimal choice; with one row of several columns it raises IndexError, or returns the sum of the row when min_weight_perm choses the first column. min_weight_perm_brute_force raises ValueError when the matrix is not square, except with one row or one column, for which it returns the identity whatever the weights.",
  "all lists of integers, matrices of all shapes and all weights", "tests use square matrices only; the outcome for the others depends on broadcasting and on the columns which are chosen", ["multimodal/lib/munkres.py: permutation_matrix, weight, min_weight, min_weight_perm_brute_force"])
p("C217","What remains when a save of a log fails or is interrupted",
  "Logger.save with a plain value which JSON cannot write raises TypeError and from then on load raises ValueError: the log which the file held before is lost too. Interrupted between its writes, over a log which was saved: without array in the new log, load gives the old log, then raises ValueError while the JSON file is written, then gives the new log. With arrays, while the archive is written load raises if the old log has arrays; when it is complete and the JSON file is not open, load raises IndexError exactly when the new log has an array in a run which the old one does not have, and otherwise gives the runs, the run keys and the plain values of the old log with the arrays of the new one, the arrays of the old one being lost; if the old log has no array, or if arrays are not loaded, it gives the old log. Whatever happened, a complete save can be loaded.",
  "all old and new logs, all sets of values which JSON writes, and all points of interruption", "tests do not interrupt saves; outcomes depend on the arrays and runs of both logs", ["multimodal/lib/logger.py: Logger.save, Logger.load"])
p("C218","Distances between all rows are the measures of pairs of rows",
  "all_distances(reco, ex, measure) of matrices with n and m rows, for each of kl_div, rev_kl_div, sym_kl_div, frobenius, cosine_similarity and cosine_diff, is the array of shape (n, m) whose value at (i, j) is measure(reco[i], ex[j]); numbers of columns are the same, or one of them is 1 and its column is compared with all those of the other. The measure of a matrix and a vector, in either order, has the measures of each row and the vector. Other numbers of columns raise ValueError, even without rows, and arrays with less than two dimensions raise IndexError. On arrays of the same shape, of any number of dimensions, the measure along an axis, given by its number or from the end, has the shape without that axis and its values are the measures of the lines along it. With real numbers the measures of vectors are the formulas of divergence, Euclidean distance and cosine.",
  "all shapes and values, all axes, and any arithmetic of values (real numbers or doubles)", "tests compare few small matrices; broadcasting depends on shapes of intermediate arrays", ["multimodal/evaluation.py: all_distances", "multimodal/lib/metrics.py: generalized_KL, kl_div, rev_kl_div, sym_kl_div, frobenius, cosine_similarity, cosine_diff"])
p("C219","Conditional entropy and sparseness of arrays of any number of dimensions",
  "conditional_entropy(histo, axis) of an array with at least two dimensions whose total is 1 up to 1e-5 + 1e-8 is the entropy of its values minus the entropy of their sums over all other axes, and is not negative for probabilities; axes are given by their numbers or from the end. A vector raises TypeError, another total AssertionError, and otherwise an axis which the array does not have ValueError. hoyer_sparseness(X, axis) compares the square root of the length n of the axis with the average, over all lines along it, of the ratios of their norms; it is between 0 and 1 if n is at least 2 and there is at least one line, is not a finite number if n is 1 or without line, and raises IndexError for an axis which the array does not have.",
  "all shapes, all axes, all real values, any eps > 0 for the range", "tests have a few matrices; axes of arrays of higher dimension are exchanged and merged", ["multimodal/lib/metrics.py: conditional_entropy, entropy, hoyer_sparseness"])
p("C220","Run modes which are other strings",
  "An experiment whose run_mode is a string other than leave-one-out and single is prepared as others, and its parameters are logged, written to and read from files with that string; then run raises ValueError or TypeError before any run and saves nothing, the log and the files of before being kept. It is ValueError if the string has a character which is not a digit, a sign or a space, as single-run, which the comment of the constructor names, whatever the number of samples; it is TypeError for strings of digits if there is a sample besides examples.",
  "all such strings, all data, all learners", "tests use the modes which work; the outcome depends on the string repeated as many times as there are samples", ["multimodal/experiment.py: MultimodalExperiment.get_generator, run, prepare, serialize_parameters, from_serialized", "multimodal/lib/utils.py: random_split"])
p("C221","Normalised divergence of arrays which share memory, and of counts",
  "kl_div(a, b, normalize=True) modifies its arguments. When they share no memory, the value on each line is that of distinct arrays and nothing else is modified. An array compared with itself gives 0 and is normalised once. When arrays of weights share a part, the array normalised last has sums of 1 after the call (the second argument of kl_div, the first one of rev_kl_div and sym_kl_div), but the other one may not, and the divergence differs from that of copies of the arrays. With arrays of integers python 3 raises TypeError and modifies nothing; with python 2, when each line of both has two or more positive counts, all counts are overwritten by zeros and the divergence is 0 whatever they were.",
  "all memories, positions of arrays in it, numbers of lines and values", "tests use distinct arrays of floats", ["multimodal/lib/metrics.py: kl_div, rev_kl_div, sym_kl_div"])
p("C222","Linear binning in two dimensions with rounded operations",
  "With doubles, get_bins_2d of samples within bounds which are at most 2 ** 40 steps from zero along each axis (steps between 2 ** -400 and 2 ** 400, at most 2 ** 40 samples) always finds its four bins: no IndexError. Grid points are within 23 * M / 2 ** 52 of the exact ones, M bounding the ends; each bin is within (109 * (Mx/dx + My/dy) + 4 n) / 2 ** 52 / (dx dy) of the mean over samples of products of triangular kernels divided by the area of a cell; the sum of bins times this area is near 1, and so are the removed bins of 0. Grids begin exactly at the lower bounds. Bins may be negative, but by no more than this error. When a range rounds to null steps along an axis: IndexError. Without rounding these are the bins of C69.",
  "all roundings to nearest with 53 bits, samples, bounds and numbers of bins", "tests compare few bins up to a tolerance", ["multimodal/lib/kde2d.py: get_bins_2d"])
p("C223","Displacement of density estimates in two dimensions",
  "Because the grid of its kernel is not centred, the estimate of gaussian_kde_2d is displaced: the value at a grid point is the sum of bins weighted by a Gaussian (cut outside the range) of the difference between the grid point and the bin less a half step along each axis for an even number of bins, less one step for an odd number: then the value which belongs to a grid point is found at the next one. With doubles the grid of the kernel may have one more value: the coordinate which weights the bin of the grid point itself stays near minus a half step for even numbers of bins, but for odd numbers it is near minus one step or near 0, depending on rounding and on the axis.",
  "all samples, bounds, widths and numbers of bins; all roundings to nearest with 53 bits", "tests do not look at positions", ["multimodal/lib/kde2d.py: gaussian_kde_2d"])
p("C224","Random splits with doubles",
  "With rounded products and quotients, for at most 2^50 samples and a positive ratio random_split still cuts disjoint complete test sets: their number is the integer part of the rounded inverse of the ratio and their size the integer part of the rounded ratio*n, and number times size never exceeds n, although both may be rounded up. Each of these integers is the exact integer part, or the next integer when the exact value is within a half unit in the last place of it. ValueError is raised when the rounded size is 0; ratios up to 2^-1025 raise OverflowError. With doubles 1./49 raises ValueError on 49 samples and gives tests of one sample on 98, and 1./93 gives only 92 pairs on 93 samples.",
  "all numbers of samples up to 2^50, positive ratios, shuffles and roundings to nearest with 53 bits", "depends on the rounding of particular ratios", ["multimodal/lib/utils.py: random_split"])
p("C225","Filters, velocities and normalisation with doubles",
  "With doubles: each value of filter_cont differs from the mean of three values by at most 3/2^53 times the largest magnitude of the column (plus 2^-1074), values which are not negative stay so, and columns of integers up to 2^51 stay between bounds which are floats; but constant columns may change: 0.1 becomes larger and 0.7 smaller. velocities and delayed_velocities are the rounded exact differences, fail in the same cases, and have the signs of the exact differences, so that they are zero only between equal positions; columns of velocities do not always sum to zero. manualy_normalize never divides by zero, is increasing, and sends low to 0, up to 1 and values between them into [0, 1] exactly.",
  "all arrays, bounds, delays and paddings; all roundings to nearest with 53 bits, or all doubles for signs and normalisation", "tests compare with tolerances", ["multimodal/lib/utils.py: filter_cont", "multimodal/lib/utils.py: velocities", "multimodal/lib/utils.py: delayed_velocities", "multimodal/lib/utils.py: manualy_normalize"])
p("C226","Arguments, formats and integers of feature normalisation",
  "normalize_features leaves dense arrays as they are; csr, csc and coo matrices keep format, type, shape and all values but lose exactly their stored zeros, even when the call then fails, and a second call with the same object gives the same. Results for csr, csc and coo matrices of floats, repeated entries included, are csc matrices with the values of the dense result. lil, dok and dia matrices (such as GrowingLILMatrix) raise AttributeError; arrays of integers raise TypeError, except sparse ones in python 2, whose result is not normalised: 1 where a count is the whole sum of its column and 0 elsewhere.",
  "all arrays, formats, stored zeros and repeated entries", "tests only use matrices of floats made from dense arrays", ["multimodal/lib/array_utils.py: normalize_features"])
p("C227","Soft vector quantisation with rounded operations",
  "With doubles, soft_associate with 0 < alpha <= 700 gives weights from 0 to 1, positive for the nearest centroids and not larger for farther ones, even if some distances overflow. A vector which is a centroid has weight exactly 1 for it and 0 for all others if these are at square distance 8e-7 / alpha or more. With alpha >= 760 all weights of a vector whose nearest centroid is at square distance 1e-6 or more are NaN, and so are those of a vector all of whose distances overflow or one of whose distances is NaN. Different vectors may be at distance 0. Different numbers of columns raise AssertionError, and no centroids ValueError.",
  "all vectors, centroids, orders of additions and parameters in these ranges", "underflow and overflow depend on scales of data which tests do not use", ["multimodal/lib/vector_quantization.py: square_distances, soft_associate"])
p("C228","Norms and unit vectors with rounded operations",
  "With doubles, vector_norm of n <= 2**50 entries, each zero or from 2**-500 to 2**480 in absolute value, has relative error at most (n + 4) / 2**52, and each entry of unit_vector at most (2 * n + 9) / 2**52 (plus 2**-1075), whatever the order of additions. As soon as one entry is 2**-500 or more, all entries of unit_vector are numbers from -1 to 1, exactly, with the signs of those of the vector. A vector along an axis has exactly its norm and its unit vector. Entries of at most 2**-538 only (as those of the null vector) give norm 0 and a unit vector of infinite values and NaN; an entry of 2**512 or more gives an infinite norm and a null unit vector.",
  "all vectors of doubles in these ranges, all orders of additions", "tests compare with tolerances on random vectors in [0, 1)", ["multimodal/lib/transformations.py: vector_norm, unit_vector"])
p("C229","Hoyer's sparseness with rounded operations",
  "With doubles, for lines of 2 <= n <= 2**40 entries, each zero or from 2**-500 to 2**480 in absolute value, and m <= 2**40 lines, hoyer_sparseness differs from the exact value, which is from 0 to 1, by at most (n + m + 8) / 2**48, whatever the orders of additions. If each line has at most one entry which is not zero (of at most 2**500) the result is exactly 1. Along an axis of length 1 it is NaN. For one line with an entry of 2**512 or more (entries at most 2**900), whose squares overflow, it is greater than 1.",
  "all arrays of doubles in these ranges, all orders of additions", "tests compare a few values with tolerances", ["multimodal/lib/metrics.py: hoyer_sparseness"])
p("C230","Filters, velocities and normalisation of integers",
  "On arrays of machine integers (signed or not): filter_cont divides by 3 the sum of three values reduced modulo 2**bits into the type, with integer quotients of the same type in python 2 and doubles in python 3; in python 2, when sums fit, values are the means rounded down and stay between bounds of the column; a constant column is kept exactly when three times its value fits (types of 2 to 32 bits). velocities, and delayed_velocities with circular padding, are integers of the type congruent to the exact differences modulo 2**bits: velocities are the differences exactly when these fit, and are zero only between equal positions; columns of velocities sum to a multiple of 2**bits; for unsigned integers 2**bits is added where positions decrease. With zeros as padding, delayed_velocities gives doubles, exact for positions up to 2**52. manualy_normalize of integers of at most 32 bits gives the double nearest to the exact value, from 0 to 1, between bounds whose width fits; unsigned values below the lower bound become at least 1; when the width of signed bounds does not fit, the upper bound becomes 1, the lower 0, and values close above the lower bound negative ones; equal bounds are only subtracted.",
  "all arrays of integers of any type in these ranges", "wrap-around depends on the type of the data, tests have floats only", ["multimodal/lib/utils.py: filter_cont, velocities, delayed_velocities, manualy_normalize"])
p("C231","Interrupted or failing exports of databases",
  "MotionDatabase.export as npz writes the meta data, then the archive. Over an older export under the same name, interrupted after k of its four steps (start and end of each file): the older database is loaded only if nothing was started; loading raises while a file is incomplete; between both files, loading raises nothing when the new database has no more records than the old one, and gives new name, markers, labels and descriptions with the arrays of the old one (KeyError otherwise); after the end the new one is loaded. A label which JSON cannot write makes export raise TypeError and spoils older meta data, not the older archive. A complete export can be loaded whatever the files were, and no other file is ever changed. ObjectDB.save interrupted between its two files likewise gives new frames and names with old matrices.",
  "all databases, names, files and interruption points", "tests do not interrupt exports", ["multimodal/db/models/kinect_motion.py: export, load_from_npz", "multimodal/db/models/objects.py: ObjectDB.save, load"])
p("C232","Loading several files in one database of sounds",
  "DataBase.load_from on a database which is not empty: a file is loaded exactly when its tags and its speakers are distinct and new, ValueError otherwise. Then tags and speakers of the file come after the existing ones, existing records and the names of their tags are unchanged, records of the file have in the database the names of tags which they have in the file, even names the file does not declare, no other tag is created, and root is that of the last file for all records. An existing tag raises after root is replaced and previous tags are added, with no other change; an existing speaker raises once the previous speakers of the file and their records are added, and nothing is sorted; a failing sort (missing audio name) leaves previous lists sorted and following ones as they were. A file with a tag or a speaker cannot be loaded twice; the second attempt raises and changes nothing.",
  "all databases with consistent tags, all files", "tests do not load several files in a database", ["multimodal/db/models/sound.py: load_from, add_tag, add_speaker, Record.from_dict, sort"])
p("C233","One factorization object used several times",
  "For a KLdivNMF object: the outcome of fit, and the object after a fit which succeeds, do not depend on its current components (no warm start); of several successful fits only the last one counts when n_components is given. With negative data fit raises ValueError and changes nothing, but transform, which raises too, still records the components as initial dictionary of later fits. Once an object has been fitted on data with n features and has been asked to transform any data, successfully or not, then after any sequence of calls of fit and transform its components have the same shape, and fit or transform of non negative data with another number of features raises AssertionError and leaves the components. Without transform, it can be fitted again on data with another number of features; a number of components which was not given, or zero, is the number of features of the first data and remains so.",
  "all data, random numbers, and sequences of calls", "tests use an object once", ["multimodal/lib/nmf.py: KLdivNMF.fit, transform, fit_transform, _init"])
p("C234","A learner trained several times",
  "For a MultimodalLearner: a training which raises, for any reason, leaves the learner as it was; a training changes nothing but the dictionary, and neither its outcome nor the dictionary it gives depend on the current dictionary. Hence after any sequence of trainings, the learner is the one given by the last which succeeds, on its own; when none succeeds it is as it was, and if it had no dictionary, get_dico and reconstruct_modality of a modality raise TypeError. Reconstructions draw no random number. Matrices given to train beyond the modalities are ignored; with fewer matrices than modalities train does not refuse them: it is the training of a learner which has only the first modalities, and get_dico of the others is a matrix without columns.",
  "all learners, data, random numbers, and sequences of trainings", "tests train a learner once, on one matrix per modality", ["multimodal/learner.py: MultimodalLearner.train, get_dico, reconstruct_internal_multi, modalities_to_modalities"])
p("C235","Motion databases share their records",
  "For any motion databases, also if they hold the same arrays or lists of labels: a new one has no record until its own methods are called, and leaves the others as they are; add puts a record at the end of its database and changes no other; extend has the outcome of C85 for the current contents, also when both databases are the same one, whose records are then repeated; a failure changes nothing and a success no other database, in particular not the second one. Hence a program which changes no array or list of labels in place changes a database only by calls of its own methods. Arrays and lists of labels are not copied: one which is changed in place changes exactly the records which were given it, in all databases; after x.extend(y), whatever is done next, the records which x got from y remain equal to the ones of y.",
  "all databases, sharing of arrays and lists of labels, and programs", "sharing shows only through later changes", ["multimodal/db/models/kinect_motion.py: MotionDatabase.add, extend"])
p("C236","Labels and descriptions of motion databases",
  "get_occuring_labels is the set of labels of all records; adding a record adds its labels, and an extended database has those of both. get_description_safe returns the empty string without descriptions, for a label which is not a key and for an index out of range, and otherwise the description, negative indices counting from the end; a string raises TypeError when descriptions are a list. After a successful extend every label of a record has a description, the one which both databases gave it.",
  "all databases, descriptions and labels", "all integers and strings as labels, in lists and dictionaries", ["multimodal/db/models/kinect_motion.py: MotionDatabase.get_occuring_labels, get_description_safe, extend, add"])
p("C237","An experiment object run several times",
  "run may be called several times on the same experiment, with random choices and outcomes which differ. Runs which are in the log remain as they are, and new ones follow. Pairing, examples and parameters of the log are replaced by those of the last call which was prepared, also when its runs fail: the labels computed from the log for samples of earlier runs are then those of the last call, and there is an experiment run twice successfully where the label of a test sample of the first run is another one. Coefficients which were given remain; otherwise they are the inverses of the average sums of the data of the first call which could read them, and remain so, even if later data differ. The runs of a call are trained with the coefficients which the object has after it, whereas the log has those before it (None in the first call when none are given). Other parameters never change.",
  "all sequences of calls of run, outcomes of loaders, learners and evaluations which do not raise StopIteration", "sequences of calls, any data and random choices", ["multimodal/experiment.py: MultimodalExperiment.run, prepare, _set_coefs, _parameters_to_dict", "multimodal/lib/logger.py: Logger.store_global, new_run"])
p("C238","The learner with doubles",
  "With each operation rounded to the nearest double, additions in the order chosen by libraries, and numbers which are not finite kept as such: training on non-negative data up to 2^e with coefficients of modalities up to 2^f, where e + f is at most 400, succeeds, and the dictionary has as many lines as components, as many columns as the sum of dimensions, and doubles between zero and one. With such a dictionary, reconstructing modalities from others succeeds for such data: the result has as many lines as samples, the sum of dimensions of the reconstructed modalities as columns, finite non-negative doubles up to 2^512, and zeros for samples which are zero in all given modalities. When the product of a number of the data (but zeros of sparse data) by its coefficient is not finite, training raises ValueError and the learner does not change; without data it raises IndexError, and with data of other numbers of samples or dimensions AssertionError. A reconstruction raises ValueError or AssertionError for the first given modality which is not known or whose data have another dimension, then TypeError if the learner was not trained, and ValueError without given modalities or when those asked for are none or not all known. Stacked data contain the rounded products by the coefficient of each modality, zeros of sparse data remaining zeros, stacked dictionaries the columns of each modality, both at the sum of the dimensions of previous modalities in the order of the request; training is a factorization of the stacked data, and the result the product of the coefficients found for the stacked data by the stacked dictionaries of the requested modalities.",
  "all lists of distinct modalities, dimensions, coefficients, data, dictionaries and numbers of iterations (positive), sizes up to 2^53, orders of additions; sparseness None", "real data, any number of iterations and any order of additions", ["multimodal/learner.py: MultimodalLearner.train, get_stacked_dicos, stack_data, reconstruct_internal_multi, reconstruct_modalities, modalities_to_modalities, fit_coefficients", "multimodal/lib/array_utils.py: safe_hstack"])
p("C239","Default coefficients of modalities with doubles",
  "With rounded operations and additions in the order chosen by libraries, coefficients which are given to an experiment are kept. Otherwise the coefficient of a modality is the inverse of the average of the sums of its raw samples. For data between zero and 2^e one of which is at least 2^-g it is a double between 2^-(53+e) and 2^(53+g); its product by the exact average is one up to factors of relative size 2^-52 for divisions and 2^-53 for each addition. For data which are all zero, or without samples, it is not finite. Hence when e + g is at most 347 training with default coefficients succeeds; when the raw data of a modality are all zero and its training data are an array which is not empty, it raises ValueError and the learner does not change.",
  "all raw and training data, sizes up to 2^53, e and g up to 900 for coefficients, orders of additions", "real data and any order of additions; overflow and zero data", ["multimodal/experiment.py: MultimodalExperiment._set_coefs", "multimodal/learner.py: MultimodalLearner.train"])
p("C240","One run of an experiment with doubles",
  "With rounded operations, sample q of the prepared data of a modality is the raw sample of this modality in the pair with the number of the q-th sample which is no example. A run trains a new learner, with the dimensions of these data and the coefficients of the experiment, from the samples of the training set, and finds with it the coefficients of each modality from the samples of the test set in that modality alone. With default coefficients, raw data between zero and 2^e and in each modality a number at least 2^-g, e + g at most 347, a run succeeds whatever the pairing, the examples, the split and the random numbers: the dictionary is between zero and one, with k lines and as many columns as the sum of dimensions, and there is for each modality a matrix of finite doubles, not negative, with a line for each test sample and k columns.",
  "all raw data in this range, pairings, examples, splits, sizes up to 2^53, positive numbers of iterations, random numbers between zero and one for training, orders of additions", "real data and any split; overflow", ["multimodal/experiment.py: MultimodalExperiment._perform_one_run, _get_all_internals, _get_new_learner, _set_labels_and_prepare_data"])

with open('/verif/properties.jsonl','w') as f:
    for d in P: f.write(json.dumps(d,ensure_ascii=False)+"\n")
print(len(P))
