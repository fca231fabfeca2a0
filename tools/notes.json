{
 "C01": {
  "note": "Floats are modelled as rationals."
 },
 "C02": {
  "note": "Positive steps and tolerances; for the exact list the step is at least twice the tolerance. Other steps: C210. Rounded times: C194."
 },
 "C03": {
  "note": "The shift is at least twice the tolerance. Other shifts: C210."
 },
 "C05": {
  "note": ""
 },
 "C06": {
  "note": "Rates up to 1 / (2 * tolerance), i.e. 500 kHz."
 },
 "C08": {
  "note": "The two behaviours differ, as stated, only on ranges shorter than one sample."
 },
 "C29": {
  "note": "Exact rational weights; C29_empty_matrix covers empty matrices."
 },
 "C31": {
  "note": "Loops carry fuel; 2n+1 iterations of each loop suffice and the result does not depend on more fuel."
 },
 "C48": {
  "note": "The counting claim is false of the code (repeated pairs are counted once): C48_confusion_not_counting gives a witness; C48_confusion_indicator says what is computed and C48_confusion_partial when it is the count."
 },
 "C72": {
  "note": "Plain values are those JSON reproduces. With a file name ending in .npz, arrays cannot be loaded back (C72_npz_file_name)."
 },
 "C73": {
  "note": "False of the code: load stores the result keys in another attribute. C73_result_keys_partial: a loaded logger has no result key; C73_result_keys_lost is a witness.",
  "status": "partial"
 },
 "C74": {
  "note": "False of the code: C74_crash_mixed is a witness of a mixture of two logs, C74_crash_truncated shows that every save has a crash point after which loading raises. C74_crash_partial states when it is safe. C74_crash_more_runs: with more runs, a crash between the files makes loading raise IndexError. Every state left by an interrupted or failed save: C217.",
  "status": "partial"
 },
 "C34": {
  "note": "Real numbers. With eps = 0 both arrays are positive (numpy gives nan for 0 * log 0)."
 },
 "C38": {
  "note": "Matrices; real numbers."
 },
 "C42": {
  "note": "Arrays of every dimension, negative axes included; rational entries."
 },
 "C43": {
  "note": "Holds for data of any sign; sparse entries may be repeated or explicitly zero."
 },
 "C44": {
  "note": "Rows given as lists."
 },
 "C77": {
  "note": "Databases reached by the API are consistent (C77_reachable); a missing audio name makes sorting raise (C77_missing_audio). JSON values are those it reproduces. Loads of several files and failed loads: C232."
 },
 "C78": {
  "note": "False of the code by one: C78_unknown_tag_accepted is a witness of a record accepted with the tag id len(tags); C78_acceptance is the exact acceptance condition and C78_known_partial the part which holds.",
  "status": "partial"
 },
 "C79": {
  "note": "C79_counts gives the entries without the hypothesis on repeated tags, C79_cooccurrences the statement."
 },
 "C80": {
  "note": "The last claim is false of the code for distinct records of the same audio name: both a > b and b > a (C80_gt_wrong). C80_gt_partial: it holds otherwise; C80_strict_order: the order by <.",
  "status": "partial"
 },
 "C81": {
  "note": "False of the code for exactly four blocks, which always give five views (C81_four_blocks, C81_number_of_views). C81_views_partial: all other numbers of blocks.",
  "status": "partial"
 },
 "C82": {
  "note": "C82_built composes it with the reading of files. Without any frame or with a last frame without view: IndexError (C82_index_error); other frames without view get the row of another frame (C82_empty_frame)."
 },
 "C83": {
  "note": "C83_rows also gives the content of the rows."
 },
 "C84": {
  "note": "Records, marker names and name are reproduced for every database; descriptions when they are None, a list or a dictionary with string keys. False for dictionaries with integer keys (C84_int_keys_lost): JSON makes strings of the keys, so no integer label has a description after loading. Interrupted and failing exports: C231.",
  "status": "partial"
 },
 "C85": {
  "note": "For every order in which Python may enumerate the set of labels."
 },
 "C86": {
  "note": "For every sequence of calls, and whatever the files hold at each call. Also: speakers outside 0..3 (the check accepts 4) never give data."
 },
 "C96": {
  "note": "Single check and any sequence of check and download."
 },
 "C100": {
  "note": "Success condition, files written, and state left by a failure."
 },
 "C101": {
  "note": "Names injective for all natural numbers; success; behaviour with a wrong year."
 },
 "C51": {
  "note": "Column ranges (C51_ranges, C51_cover) and stacked dictionaries (C51_stacked). Names have to be distinct: C51_repeated."
 },
 "C52": {
  "note": "C52_exact: what is reconstructed is the scaled data, not the data."
 },
 "C53": {
  "note": "The dictionary is that of KLdivNMF on the stacked data; matrices beyond the number of modalities are ignored by the code (zip), hence the hypothesis that there is one for each. Any sequence of trainings, and fewer or more matrices than modalities: C234."
 },
 "C54": {
  "note": "For every initial dictionary, number of iterations, dense or sparse data; C54_success shows that fit_transform does succeed."
 },
 "C55": {
  "note": "C55_fit_after_transform: the dictionary is also kept as the initial one of any later fit. Any sequence of calls: C233."
 },
 "C56": {
  "note": "For dense and sparse data, and non-negative coefficients (not only positive); strict except at fixed points; bound for components which sum to less than 1, as those of the code; C56_unnormalised shows that normalisation is needed."
 },
 "C57": {
  "note": "C57_values: recorded values are the errors of the successive iterates; the coefficients returned come one update later."
 },
 "C58": {
  "note": "Holds for data of any sign. C58_generalized_KL relates the error to the metric of the metrics module."
 },
 "C59": {
  "note": "With a single component the code always raises IndexError (C59_single)."
 },
 "C60": {
  "note": "For any regularisation; C60_no_eps is the case eps = 0, C60_mass a bound with the eps of the code."
 },
 "C61": {
  "note": "C61_unbound: the exception is UnboundLocalError, after components_ was set."
 },
 "C102": {
  "note": "For every execution."
 },
 "C103": {
  "note": "Descent lemma with the Kullback-Leibler divergence between old and new coefficients as lower bound of the decrease."
 },
 "C104": {
  "note": "C104_train and C104_modality_to_modality; the hypotheses of the second on the dictionary are conclusions of C53_trained."
 },
 "C62": {
  "note": "C62_counts for lags from 1; C62_lag_zero for lag 0; C62_negative_lag and C62_far_negative_lag for negative lags."
 },
 "C63": {
  "note": "For every MFCC, delta and quantisation routine whose codes are below the size of the codebook."
 },
 "C64": {
  "note": "Routines are parameters with the contract `Contract`; the number of evaluations of the loop condition is bounded by max(k, 1)."
 },
 "C65": {
  "note": "Codes of scipy's vq are a parameter; hard quantisation is proved for codes of nearest centroids, which those of associate are. Weights are real numbers; underflow of exp is the subject of C227."
 },
 "C66": {
  "note": "For lists of arrays seen as lists of lines."
 },
 "C67": {
  "note": "C67_options is the independence; C67_binned tells what the density estimator is given."
 },
 "C105": {
  "note": "k-means, whitening and histograms are parameters."
 },
 "C68": {
  "note": "Over any ordered field with integer parts; float positions of bins are taken to be indices, as numpy before 1.12 allows."
 },
 "C69": {
  "note": "C69_above and C69_unchecked show what happens out of bounds."
 },
 "C106": {
  "note": "Over the real numbers: with floats, np.arange may give one more point, and exponentials may underflow."
 },
 "C107": {
  "note": "Over the real numbers, as C106; FFT convolution is taken to be exact."
 },
 "C87": {
  "note": "What loaders return is arbitrary; enumeration orders of sets and shuffles are parameters under their contracts."
 },
 "C88": {
  "note": "The learner and evaluations are parameters. A StopIteration raised by them ends the experiment silently (C88_stop_iteration); C88_completes: runs complete whenever training and evaluation do."
 },
 "C89": {
  "note": "C89_reserved: with a modality named bis, frob or cosine the run fails. C89_run: whole experiments complete."
 },
 "C90": {
  "note": "C90_fails covers the exact complement among lists of two and three distinct names."
 },
 "C91": {
  "note": "Attributes are compared; loaders are compared by their configuration."
 },
 "C92": {
  "note": "Floats are real numbers. toH identifies quaternions with those of Mathlib."
 },
 "C93": {
  "note": "C93_scale needs the threshold (an example shows that it fails below it)."
 },
 "C94": {
  "note": "C94_scale needs the threshold; C94_degenerate says what happens below it."
 },
 "C95": {
  "note": "atan2 is the argument of complex numbers. gimbal is the quantity which the code compares with _EPS."
 },
 "C109": {
  "note": "Names in capital letters raise KeyError in euler_matrix only (example)."
 },
 "C110": {
  "note": ""
 },
 "C111": {
  "note": ""
 },
 "C112": {
  "note": "Angles are triples; numpy.hstack concatenates them."
 },
 "C113": {
  "note": "The file system is given by what os observes and does not change during the call; listings have distinct non empty names."
 },
 "C114": {
  "note": "C113_import states the records too. Sound files with an extension in upper case give records without sound (example).",
  "also": [
   "Verif.Corpus.C113_import"
  ]
 },
 "C115": {
  "note": ""
 },
 "C116": {
  "note": "The mode 'everything' cannot work: set(speakers_info.keys) is applied to a method."
 },
 "C117": {
  "note": "dom.parse is a parameter giving a tree; C117_only_if is the converse."
 },
 "C118": {
  "note": "check_year raises a tuple, hence TypeError in Python 3."
 },
 "C119": {
  "note": "The version of Python is a parameter."
 },
 "C120": {
  "note": ""
 },
 "C121": {
  "note": "Combines C113, C117 and C77."
 },
 "C122": {
  "note": ""
 },
 "C123": {
  "note": "Composition with C89_run and C90_run, which give ScoresTwo and ScoresThree."
 },
 "C124": {
  "note": ""
 },
 "C125": {
  "note": "Standard deviations are represented by their squares, over the rationals. C125_mean_variance is the numerical part."
 },
 "C126": {
  "note": "The order of arguments in InteractivePlot and plot_one_sentence is a defect; the sample script passes them in the order which works."
 },
 "C127": {
  "note": "Only what is given to matplotlib is modelled; annotations of plot_one_sentence are not."
 },
 "C128": {
  "note": ""
 },
 "C129": {
  "note": "Sliders replace a value v by an arbitrary function of v."
 },
 "C130": {
  "note": "Annotations are not modelled."
 },
 "C131": {
  "note": "The order of sets is an arbitrary enumeration. Only ASCII letters are changed by lower()."
 },
 "C132": {
  "note": ""
 },
 "C133": {
  "note": "np.histogram with exact numbers, without the rounding corrections of numpy."
 },
 "C134": {
  "note": ""
 },
 "C135": {
  "note": "The wrong keys are a defect of the script."
 },
 "C136": {
  "note": ""
 },
 "C137": {
  "note": "Exact statement of what the script does; C137_wrong is the witness which shows that it is a defect."
 },
 "C138": {
  "note": "Job and pools of the package expjobs are not modelled; a job is a path, a name and a script."
 },
 "C139": {
  "note": "The logs are loaded without arrays, as in the launcher."
 },
 "C140": {
  "note": ""
 },
 "C141": {
  "note": "The DEBUG branch is not modelled."
 },
 "C142": {
  "note": ""
 },
 "C143": {
  "note": ""
 },
 "C144": {
  "note": ""
 },
 "C145": {
  "note": ""
 },
 "C146": {
  "note": ""
 },
 "C147": {
  "note": ""
 },
 "C148": {
  "note": "Angles without tangent are left out (no float is one)."
 },
 "C149": {
  "note": "The numbers drawn are parameters; their distribution is not modelled."
 },
 "C150": {
  "note": "Exact statement: the result for odd spin is not a unit quaternion in general (example in Examples.lean)."
 },
 "C151": {
  "note": "The axis (0, 0, -1) is a defect of arcball_constrain_to_axis (only a[2] == 1.0 is tested): C151_nan."
 },
 "C153": {
  "note": ""
 },
 "C154": {
  "note": ""
 },
 "C152": {
  "note": "The forgotten small perspective is part of the exact statement."
 },
 "C155": {
  "note": "numpy.linalg.svd and eig are parameters; the theorems assume their contracts (IsSvd, IsEig) for the matrix they are given. The scale of the code is the ratio of deviations, which is not the factor with the lowest sum of squares; the statement is for the scale of the code."
 },
 "C156": {
  "note": "Same contracts as C155."
 },
 "C157": {
  "note": "numpy.linalg.eig is a parameter; the theorems assume its contract (IsEigC) for the matrices it is given."
 },
 "C158": {
  "note": "numpy.linalg.eig is a parameter; the theorems assume its contract (IsEigC) for the matrices it is given. For cosines strictly between 1 - 1e-8 and 1 the tolerance accepts complex eigenvalues; the statement leaves them out."
 },
 "C159": {
  "note": "numpy.linalg.eig is a parameter; the theorems assume its contract (IsEigC) for the matrices it is given."
 },
 "C160": {
  "note": "numpy.linalg.eig is a parameter; the theorems assume its contract (IsEigC) for the matrices it is given. The failures at depth one and with a last eigenvalue minus one are part of the statement."
 },
 "C161": {
  "note": "numpy.linalg.eig is a parameter; the theorems assume its contract (IsEigC) for the matrices it is given. shear_matrix itself accepts directions within 1e-6 of orthogonality; the statement is for orthogonal ones."
 },
 "C162": {
  "note": "That kde_entropy_gaussian_2d always raises TypeError is part of the statement."
 },
 "C163": {
  "note": "Equality up to real arithmetic; the sign (minus the divergence) is the code's and part of the statement."
 },
 "C164": {
  "note": "The density estimate is the one of C107; square root taken as the integer part of the real root."
 },
 "C165": {
  "note": "numpy's sum and conversions are parameters with contracts; the products of numpy and scipy are taken to be products of matrices. That copy does not copy vectors is part of the statement."
 },
 "C166": {
  "note": "How numbers are written ('{:.3f}') is a parameter. The failure of the table with three modalities is part of the statement."
 },
 "C167": {
  "note": "That download_dbs fails is part of the statement."
 },
 "C168": {
  "note": "Matrices are abstract; that a matrix is read as it was written in a .mat file is assumed. The ineffective guard of parse_objects is part of the statement. Interrupted saves: C231."
 },
 "C169": {
  "note": "wav2hac is a parameter which may fail; the content of .mat files is read as written."
 },
 "C170": {
  "note": "MotionDatabase.load_from_npz and the computation of features are parameters in the first theorems."
 },
 "C171": {
  "note": "Computation of MFCC, derivatives and codebooks are parameters. The order of the records of a speaker is that of a sort by sound file, see C121."
 },
 "C172": {
  "note": "Spines and tick positions are what is modelled of matplotlib. With a logarithmic axis which keeps both spines the position of ticks depends on the order of a set, hence the hypothesis of C172_twice."
 },
 "C173": {
  "note": "Drawing itself is a parameter: the theorems say on which axes and with which arguments it is called."
 },
 "C174": {
  "note": "Construction of the document only; text encoding is xml.dom."
 },
 "C175": {
  "note": "From what the loaders read to the printed table; file formats below are C167 to C170. Training and transformation are parameters (C102 to C104 for the learner itself). Two samples of each label leave ten samples besides examples, so that no test set of the ratio 1 / 10 is empty."
 },
 "C176": {
  "note": "Values are compared through a contract: plain values by decidable equality, arrays elementwise with the truth value of numpy (ValueError with several values; the truth value of an empty array is False). Loaded loggers lose result_keys (C73), which is why equality requires none."
 },
 "C177": {
  "note": "JSON text itself is trusted: the model has the tree of JSON values with strings, numbers, lists, dictionaries. Sets of labels are written as lists in any order."
 },
 "C178": {
  "note": "Values of logs are a parameter (get_values); boxes, panels (with their place), shared ordinates, legends are modelled, drawing by matplotlib is not."
 },
 "C179": {
  "note": "Finding: `metric` is ignored (the figure titled 'Cosine' of the launcher shows scores of the first metric), and labels show lists."
 },
 "C180": {
  "note": "Composition of C139 with C178 and C179; the logs are what is saved by the runs (C140). The assertions about matplotlib parameters are not modelled."
 },
 "C181": {
  "note": "The pool (expjobs) is a sequence of readings: each access reads the next one. argparse itself is not modelled."
 },
 "C182": {
  "note": "expjobs is not part of the repository: jobs run one after another, each loading its parameters and writing its log at path and name. Learners are a parameter which keeps the number of samples and does not raise StopIteration. Composition of C177, C88, C89/C90, C140 and C180."
 },
 "C183": {
  "note": "hac with the loaded codebooks is a parameter which gives vectors of one length; learners are parameters, and setting the attribute dico of a new learner gives the coefficients of the trained one. Windows of labels built by the script and not used are not modelled. Composition of C141, C87, C88, C89 and C72."
 },
 "C184": {
  "note": "The failure for names with a relative directory is a fault of the code: load_from_npz joins the directory of the JSON file with the data file, whose name repeats this directory. Two spellings of a path are two paths; writing contents does not fail once the file is open."
 },
 "C185": {
  "note": "melspectrogram, logamplitude, dct, delta and vq are parameters with contracts: some frames, shapes kept, vq raises ValueError exactly when widths differ. The dictionary MFCC_PARAMS is state which functions return."
 },
 "C186": {
  "note": "Composition of C183, C72, C137, C141, C126 and C128. The second debug claim is exact behaviour of the code: the plot script ignores debug mode."
 },
 "C187": {
  "note": "What matplotlib draws is a drawing and the limits of ordinates which it chooses, a parameter; the figure is a value. The four names must differ up to the first dot."
 },
 "C188": {
  "note": "Arrays are lists of values in the order of C with their shapes. Types other than floats and conversions of nested lists are not modelled; infinite values neither. On doubles: C228."
 },
 "C189": {
  "note": "A prefix which begins with the text to ignore is not empty and never makes a public name; the imported module does not redefine the builtins which the function uses."
 },
 "C190": {
  "note": "The writes of a save are those of the model of C72 and C74: the archive, the opening of the JSON file, its contents; each is atomic. That jobs only change the disk by the save of their log is C182_job."
 },
 "C191": {
  "note": "Operations of scipy.sparse (eliminate_zeros, nonzero, conversion from triples, products) are modelled entry by entry; values are real numbers. The claims of C54-C61 for sparse data hold for stored matrices by C191_fit."
 },
 "C192": {
  "note": "The rounding is a parameter (IsRounding); isRounding_dbl shows that rounding to the nearest double, ties to even, without overflow, is one. model_id: without rounding this is the model of C01-C16. C192_moved is the witness for windows moved twice."
 },
 "C193": {
  "note": "Exact statement of what the code does; C193_end is the witness which shows that valid ranges may be refused. C05 and C13 are about exact times."
 },
 "C194": {
  "note": "Exact statement of what the code does; C194_last and C194_edge are the witnesses for the two failures, with doubles. The script of sliding windows uses the windows of C194_files (width 0.5, shift 0.1). C09, C10, C16, C141 and C183 are about exact times."
 },
 "C195": {
  "note": "fl is an arbitrary function: only the structure of the trees and of the matching is used"
 },
 "C196": {
  "note": "exact on multiples of a unit (C196_exact...), near-optimal in general (C196_doubles...), witnesses of results which are not optimal (C196_not_optimal, C196_large_integers). The bound is exponential in n, hence stated up to ten rows; overflow is not modelled."
 },
 "C197": {
  "note": "doubles with overflow; the logarithm of numpy is a parameter which gives doubles of absolute value at most 1024 on positive doubles. ExactDouble.lean shows that without rounding the model is that of C54-C61."
 },
 "C198": {
  "note": "additions of doubles have a relative error at most 2^-53 even for tiny numbers (dbl_add); sums in any order (Plan)"
 },
 "C199": {
  "note": "the square root is a parameter which gives the double nearest to the real one (IEEE 754); numpy's argmin with NaN as documented. The sign of zeros is not represented."
 },
 "C200": {
  "note": "the order of additions is the same for the three sums of one call, since they have the same length; the lower bound 2^-120 excludes underflow of products"
 },
 "C201": {
  "note": "normalize=False, the default, as used by the experiments; the logarithm is a parameter with a contract, met by the nearest double (exists_isLog)"
 },
 "C202": {
  "note": "numpy averages booleans as floats; sums of at most 2^53 zeros and ones are exact"
 },
 "C203": {
  "note": "sparse matrices in canonical format (no duplicates); results are given by columns"
 },
 "C204": {
  "note": "a retrieval which fails writes nothing; writing fails only for missing directories"
 },
 "C205": {
  "note": "at most 2^53 rows; margins for nearest examples are those of C199, C200 and C201"
 },
 "C206": {
  "note": "logarithms within 4 ulp (IsLog); numbers at most 2^400 for the bound of the error"
 },
 "C207": {
  "note": "logarithms within 4 ulp (IsLog); the case between 2^-19 and 2^-15 of the assertion depends on rounding; entries between 0 and 2^-500 are covered for totals at most 2^-539 only"
 },
 "C208": {
  "note": "times are exact numbers; concatenations of concatenations are left out, as in C10-C13"
 },
 "C209": {
  "note": "stored values themselves are not objects: arrays modified after they were stored are left out"
 },
 "C210": {
  "note": "exact numbers; completes C02-C04 and C15. The period of negative rates is above the tolerance"
 },
 "C211": {
  "note": "no overflow; floats used as indices as numpy before 1.12 allows"
 },
 "C212": {
  "note": "sizes only; the values of the kernel with rounded exponentials are not modelled. C106 describes the values without rounding"
 },
 "C213": {
  "note": "objects are values: a window which appears twice in a tree is not modelled; gaps within the tolerance are covered for constructors, bounds, moves and samples, not for sub-windows"
 },
 "C214": {
  "note": "other operations are exact; widths whose square is out of the range of doubles are not modelled"
 },
 "C215": {
  "note": "arrays of at most two dimensions and exact numbers; the class of the exception for thresholds, which depends on the version of numpy, is a parameter"
 },
 "C216": {
  "note": "exact weights; the class of the exception for an index None, which depends on the version of numpy, is a parameter"
 },
 "C217": {
  "note": "files are complete or not: a part of a JSON document is never a document, and the class of the exception for an incomplete archive is not claimed; file names which do not end with .npz (see C72)"
 },
 "C218": {
  "note": "operations on numbers are parameters; the order of additions is taken to depend on the number of values only; normalize=True is not in it (see C41)"
 },
 "C219": {
  "note": "real numbers; the TypeError for vectors is that of numpy from version 1.12 (a product of no length is a float)"
 },
 "C220": {
  "note": "int reads ASCII digits with a sign and spaces around; underscores and other digits of Unicode are left out"
 },
 "C221": {
  "note": "arrays have no position twice; C221_overlap is a witness"
 },
 "C222": {
  "note": "overflow is not modelled; C222_negative and C222_dropped are witnesses with doubles"
 },
 "C223": {
  "note": "values of the kernel and convolution are exact in C223_displaced; the grid of the kernel is rounded in C223_centre; C223_axes is a witness with doubles"
 },
 "C224": {
  "note": "conversion of n_samples to a float is exact in this range; C224_lost are witnesses with doubles"
 },
 "C225": {
  "note": "overflow to infinity is not modelled; C225_constants and C225_cycle are witnesses with doubles"
 },
 "C226": {
  "note": "values are exact; numpy at least 1.10 for in-place division of integers by floats"
 },
 "C227": {
  "note": "np.exp is a parameter with the contract `IsExp`: doubles from 0 to 1, 0 below -746, normal above -702, and increasing where stated"
 },
 "C228": {
  "note": "products are rounded before they are added (no fused operations); square roots are correctly rounded (IsSqrt)"
 },
 "C229": {
  "note": "the exact value includes the constant EPSILON (the double 1e-8) as in the code; square roots are correctly rounded (IsSqrt)"
 },
 "C230": {
  "note": "all arguments have the same type of integers; integer overflow wraps around silently, as for numpy arrays"
 },
 "C231": {
  "note": "the exception for an incomplete archive is modelled as ValueError, it depends on its content; an interrupted write leaves an incomplete file which does not parse"
 },
 "C232": {
  "note": "files are JSON documents with the keys which write_json writes; how list.sort leaves a list on an exception is a parameter"
 },
 "C233": {
  "note": "exact real arithmetic, as C54; the number of components is not zero"
 },
 "C234": {
  "note": "exact real arithmetic, as C53; nmf_train, which no method reads, is not modelled"
 },
 "C23": {
  "note": "With the roundings of doubles: C224."
 },
 "C26": {
  "note": "On doubles: C225; on arrays of integers: C230."
 },
 "C27": {
  "note": "On doubles: C225; on arrays of integers: C230."
 },
 "C35": {
  "note": "On doubles: C229."
 },
 "C235": {
  "note": "marker names and descriptions are values"
 },
 "C236": {
  "note": "labels are integers or strings"
 },
 "C237": {
  "note": "evaluations only store results, as those of both classes of experiments do"
 },
 "C238": {
  "note": "data from zero to a power of two, so that nothing overflows; C197 has a case which overflows without such a bound"
 },
 "C239": {
  "note": "data from zero to a power of two"
 },
 "C240": {
  "note": "data from zero to a power of two; logs are in other properties"
 }
}